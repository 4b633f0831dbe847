import Verif.Thermal.ConvergeGridProps
import Verif.Thermal.PrismNetProps
/-!
C129 for prism models: with conductivities that do not depend on the temperature the networks built for different temperatures differ only in heat
flows and capacities, so that the convergence of the iteration is decided by the slopes of the power tables and of the joule heat of the bond wires.
-/
namespace Ecad.Converge
open Ecad.Thermal Ecad.Response Ecad.Static Ecad.GridT Ecad.PrismT

variable {K : Type} [Field K] [LinearOrder K]

/-! ## specification -/

/-- the conductivities do not depend on the temperature -/
def FixedK (m : PModel K) : Prop := ∀ mat t t', m.k mat t = m.k mat t'

/-- the heat flow into an element at its temperature: the last source of a prism, or the joule heat of a segment of a bond wire -/
def elemPower (m : PModel K) (t : K) (i : Nat) : K :=
  match m.prisms[i]? with
  | some p => (m.sources p t).getLastD 0
  | none =>
    match m.lines[i - m.prisms.length]? with
    | some l => max 0 (l.current ^ 2 * (m.resist l.mat t * l.length / l.area))
    | none => 0

/-- the heat flow into an element changes by at most `L` per degree -/
def ElemSlopes (m : PModel K) (L : Nat → K) : Prop :=
  ∀ i < m.total, 0 ≤ L i ∧ ∀ t t' : K, |elemPower m t i - elemPower m t' i| ≤ L i * |t - t'|

/-! ## calls that matter for resistances and transfer coefficients -/

/-- calls other than those that set heat flows, capacities and scenarios -/
def loud : Res (Op K) → Bool
  | .ok (.scen ..) | .ok (.c ..) | .ok (.hf ..) | .ok (.addHF ..) => false
  | _ => true

/-- what a call does to resistances and transfer coefficients -/
def coreEff (minR : K) (o : Res (Op K)) (b : List (List (Nat × K) × K)) : List (List (Nat × K) × K) :=
  match o with
  | .ok (.htc i v) => b.modify i fun p => (p.1, v)
  | .ok (.addHTC i v) => b.modify i fun p => (p.1, p.2 + v)
  | .ok (.r i j v) => b.modify (min i j) fun p => (setNs p.1 (max i j) (max v minR), p.2)
  | .ok .append => b ++ [([], 0)]
  | _ => b

theorem exec_coreEff (minR : K) (a a' : Network K) (op : Op K) (ha : op.exec minR a = .ok a') : a'.map core = coreEff minR (.ok op) (a.map core) := by
  cases op <;> simp only [Op.exec, setC, setHF, addHF, setHTC, addHTC, setR_eq, upd_ok] at ha
  case append =>
    simp [appendNode] at ha
    subst ha
    simp [coreEff, core]
    exact ⟨rfl, rfl⟩
  case scen => obtain ⟨_, rfl⟩ := ha; exact map_modify_id _ _ _ fun n => rfl
  case c => obtain ⟨_, rfl⟩ := ha; exact map_modify_id _ _ _ fun n => rfl
  case hf => obtain ⟨_, rfl⟩ := ha; exact map_modify_id _ _ _ fun n => rfl
  case addHF => obtain ⟨_, rfl⟩ := ha; exact map_modify_id _ _ _ fun n => rfl
  case htc => obtain ⟨_, rfl⟩ := ha; exact map_modify_core _ _ _ _ fun n => rfl
  case addHTC => obtain ⟨_, rfl⟩ := ha; exact map_modify_core _ _ _ _ fun n => rfl
  case r => obtain ⟨_, rfl⟩ := ha; exact map_modify_core _ _ _ _ fun n => rfl

theorem fold_loud (minR : K) (l : List (Res (Op K))) : ∀ b, l.foldl (fun b o => coreEff minR o b) b = (l.filter loud).foldl (fun b o => coreEff minR o b) b := by
  induction l with
  | nil => intro b; rfl
  | cons o l ih =>
    intro b
    rw [List.foldl_cons, List.filter_cons]
    by_cases h : loud o = true
    · rw [if_pos h, List.foldl_cons, ih]
    · rw [if_neg h, ih]
      congr 1
      rcases o with op | _ | _
      · cases op <;> simp [loud] at h <;> rfl
      · simp [loud] at h
      · simp [loud] at h

/-- resistances and transfer coefficients depend on the loud calls only -/
theorem run_loud {minR : K} {l l' : List (Res (Op K))} {a b a' b' : Network K} (h : l.filter loud = l'.filter loud) (hab : a.map core = b.map core)
    (ha : run minR a l = .ok a') (hb : run minR b l' = .ok b') : Same a' b' := by
  apply same_of_core
  rw [run_fold (fun net => net.map core) (coreEff minR) (fun net net' op h => exec_coreEff minR net net' op h) l ha,
    run_fold (fun net => net.map core) (coreEff minR) (fun net net' op h => exec_coreEff minR net net' op h) l' hb, fold_loud, fold_loud minR l', h, hab]

/-! ## the calls of the prism builder -/

theorem filter_flatMap {α β : Type} {f g : α → List β} {q : β → Bool} {l : List α} (h : ∀ a ∈ l, (f a).filter q = (g a).filter q) :
    (l.flatMap f).filter q = (l.flatMap g).filter q := by
  induction l with
  | nil => rfl
  | cons a l ih =>
    rw [List.flatMap_cons, List.flatMap_cons, List.filter_append, List.filter_append, h a List.mem_cons_self,
      ih fun b hb => h b (List.mem_cons_of_mem _ hb)]

omit [LinearOrder K] in
theorem sideR_fixed {m : PModel K} (hk : FixedK m) (p q : Prism K) (e : Fin 3) (t t' u u' : K) : m.sideR p q e t u = m.sideR p q e t' u' := by
  unfold PModel.sideR
  rw [hk p.elem.cell.mat t t', hk q.elem.cell.mat u u']

omit [LinearOrder K] in
theorem vertR_fixed {m : PModel K} (hk : FixedK m) (p q : Prism K) (t t' u u' : K) : m.vertR p q t u = m.vertR p q t' u' := by
  unfold PModel.vertR
  rw [hk p.elem.cell.mat t t', hk q.elem.cell.mat u u']

omit [LinearOrder K] in
theorem aveK_fixed {m : PModel K} (hk : FixedK m) (mat : Nat) (t t' : K) : m.aveK mat t = m.aveK mat t' := by
  unfold PModel.aveK
  rw [hk mat t t']

omit [LinearOrder K] in
theorem link_fixed {m : PModel K} {T T' : List K} (hl : T.length = T'.length) (i : Nat) (n : Option Nat) {r r' : Prism K → K → K}
    (h : ∀ q u u', r q u = r' q u') : m.link T i n r = m.link T' i n r' := by
  unfold PModel.link
  cases n with
  | none => rfl
  | some n =>
    dsimp only
    split
    · cases hp : m.prisms[n]? with
      | none => rfl
      | some q =>
        by_cases hn : n < T.length
        · rw [List.getElem?_eq_getElem hn, List.getElem?_eq_getElem (by omega : n < T'.length)]
          simp only
          rw [h q _ _]
        · rw [List.getElem?_eq_none (by omega : T.length ≤ n), List.getElem?_eq_none (by omega : T'.length ≤ n)]
    · rfl

omit [LinearOrder K] in
theorem lineR_fixed {m : PModel K} (hk : FixedK m) (l : Line K) (t t' : K) (nb : Nat) : m.lineR l t nb = m.lineR l t' nb := by
  unfold PModel.lineR
  rw [aveK_fixed hk l.mat t t']
  split_ifs
  · rfl
  · cases m.lines[lineLocalIndex m.off nb]? with
    | none => rfl
    | some q =>
      simp only
      rw [aveK_fixed hk q.mat t t']
  · rfl

omit [LinearOrder K] in
theorem elem_loud {m : PModel K} (hk : FixedK m) {T T' : List K} (hl : T.length = T'.length) (i : Nat) :
    (m.elemOps T i).filter loud = (m.elemOps T' i).filter loud := by
  unfold PModel.elemOps
  cases hp : m.prisms[i]? with
  | none => rfl
  | some p =>
    by_cases hi : i < T.length
    · rw [List.getElem?_eq_getElem hi, List.getElem?_eq_getElem (by omega : i < T'.length)]
      simp only [List.filter_append]
      have hpow : ∀ t, (powerOps i p t).filter loud = [] := by
        intro t
        unfold powerOps
        cases p.elem.cell.power with
        | none => rfl
        | some w => rfl
      rw [hpow, hpow]
      rw [link_fixed hl i (p.edge 0) (r' := fun q tq => m.sideR p q 0 T'[i] tq) fun q u u' => sideR_fixed hk _ _ _ _ _ _ _,
        link_fixed hl i (p.edge 1) (r' := fun q tq => m.sideR p q 1 T'[i] tq) fun q u u' => sideR_fixed hk _ _ _ _ _ _ _,
        link_fixed hl i (p.edge 2) (r' := fun q tq => m.sideR p q 2 T'[i] tq) fun q u u' => sideR_fixed hk _ _ _ _ _ _ _,
        link_fixed hl i p.top (r' := fun q tq => m.vertR p q T'[i] tq) fun q u u' => vertR_fixed hk _ _ _ _ _ _,
        link_fixed hl i p.bot (r' := fun q tq => m.vertR p q T'[i] tq) fun q u u' => vertR_fixed hk _ _ _ _ _ _]
      rfl
    · rw [List.getElem?_eq_none (by omega : T.length ≤ i), List.getElem?_eq_none (by omega : T'.length ≤ i)]

theorem line_loud {m : PModel K} (hk : FixedK m) {T T' : List K} (hl : T.length = T'.length) (l : Line K) :
    (m.lineOps T l).filter loud = (m.lineOps T' l).filter loud := by
  unfold PModel.lineOps
  by_cases hi : l.id < T.length
  · rw [List.getElem?_eq_getElem hi, List.getElem?_eq_getElem (by omega : l.id < T'.length)]
    simp only [List.filter_append]
    have hj : ∀ t, (if 0 < m.joule l t then [(.ok (.addHF l.id (m.joule l t)) : Res (Op K))] else []).filter loud = [] := by
      intro t
      split <;> rfl
    rw [hj, hj]
    have hr : m.lineR l T[l.id] = m.lineR l T'[l.id] := funext fun nb => lineR_fixed hk l _ _ nb
    rw [hr]
    rfl
  · rw [List.getElem?_eq_none (by omega : T.length ≤ l.id), List.getElem?_eq_none (by omega : T'.length ≤ l.id)]

theorem ops_loud {m : PModel K} (hk : FixedK m) {T T' : List K} (hl : T.length = T'.length) : (m.ops T).filter loud = (m.ops T').filter loud := by
  unfold PModel.ops PModel.rangeOps
  rw [List.filter_append, List.filter_append, List.filter_append, List.filter_append, filter_flatMap fun i _ => elem_loud hk hl i,
    filter_flatMap fun l _ => line_loud hk hl l]

/-- the networks built for two vectors of temperatures -/
theorem prism_same {minR : K} {m : PModel K} (hk : FixedK m) {T T' : List K} {a b : Network K} (ha : m.build minR T = .ok (some a))
    (hb : m.build minR T' = .ok (some b)) : Same a b := by
  obtain ⟨l1, r1⟩ := PrismT.build_run ha
  obtain ⟨l2, r2⟩ := PrismT.build_run hb
  exact run_loud (ops_loud hk (by rw [l1, l2])) rfl r1 r2

variable [IsStrictOrderedRing K]

/-- the network of a cooled prism model with fixed conductivities, and the heat flows of the networks built for other temperatures -/
theorem prism_fed {m : PModel K} {mesh : Mesh} {layers : Nat} {info : Nat → Nat → Option (Cell K)} {wires : List (Wire K)}
    (hx : Extracted m mesh layers info wires) (hmut : Mutual mesh) (hc : m.Cooled) (hk : FixedK m) {minR : K} (hm : 0 < minR) (T0 : List K)
    (h0 : T0.length = m.total) :
    ∃ net, m.build minR T0 = .ok (some net) ∧ net.length = m.total ∧ Grounded net ∧
      ∀ T : List K, T.length = net.length → ∃ net', m.build minR T = .ok (some net') ∧ Same net net' ∧ ∀ i < net.length, hfOf net' i = elemPower m (T.getD i 0) i := by
  obtain ⟨net, hb, hg, _⟩ := c64_solvable hx hmut hc hm h0 0
  obtain ⟨wf, _⟩ := extracted_wf hx
  have hlen : net.length = m.total := by
    obtain ⟨net', b1, b2⟩ := c63_builds hx minR h0
    rw [hb] at b1
    injection b1 with b1
    injection b1 with b1
    rw [b1]
    exact b2
  refine ⟨net, hb, hlen, hg, ?_⟩
  · intro T hT
    rw [hlen] at hT
    obtain ⟨net', hb', _⟩ := c63_builds hx minR hT
    refine ⟨net', hb', prism_same hk hb hb', fun i hi => ?_⟩
    rw [hlen] at hi
    have ht : T[i]? = some (T.getD i 0) := by
      rw [List.getD_eq_getElem?_getD, List.getElem?_eq_getElem (by rw [hT]; exact hi)]
      rfl
    unfold elemPower
    cases hp : m.prisms[i]? with
    | some p => exact (PrismT.build_last hb' wf hp ht).1
    | none =>
      have hge : m.prisms.length ≤ i := by
        by_contra hcon
        rw [List.getElem?_eq_getElem (by omega)] at hp
        simp at hp
      have hlt : i - m.prisms.length < m.lines.length := by
        have := wf.prisms
        unfold PModel.total at hi
        omega
      have hline := List.getElem?_eq_getElem hlt
      rw [hline]
      simp only
      have hid := wf.lines _ _ hline
      rw [← wf.prisms] at hid
      have he : (m.lines[i - m.prisms.length]'hlt).id = i := by omega
      have := (c47_prism_partial hb' wf).2 _ _ (T.getD i 0) hline (by rw [he]; exact ht)
      rw [he] at this
      exact this

/-- C129, prism models: a cooled prism model extracted from a mesh whose conductivities do not depend on the temperature is, for every linear solver that
solves, a model of fixed resistances and transfer coefficients whose heat flows depend on the temperatures, with the slopes of its elements. -/
theorem c129_prism {m : PModel K} {mesh : Mesh} {layers : Nat} {info : Nat → Nat → Option (Cell K)} {wires : List (Wire K)}
    (hx : Extracted m mesh layers info wires) (hmut : Mutual mesh) (hc : m.Cooled) (hk : FixedK m) {minR : K} (hm : 0 < minR) {refT : K}
    {solve : Network K → List K} (hsize : ∀ net, (solve net).length = net.length)
    (hsolve : ∀ net, Grounded net → Solves net refT fun i => (solve net).getD i 0) {L : Nat → K} (hL : ElemSlopes m L) (T0 : List K)
    (h0 : T0.length = m.total) :
    ∃ net, m.build minR T0 = .ok (some net) ∧ net.length = m.total ∧
      Fed (m.build minR) solve net refT (fun T i => elemPower m (T.getD i 0) i) ∧
      Slopes net.length (fun T i => elemPower m (T.getD i 0) i) L := by
  obtain ⟨net, hb, hlen, hg, hall⟩ := prism_fed hx hmut hc hk hm T0 h0
  refine ⟨net, hb, hlen, ⟨hg, hall, hsize, ?_⟩, ?_⟩
  · intro net' hsame
    exact hsolve net' (grounded_same hsame hg)
  · intro T T' hT hT' d hd i hi
    obtain ⟨l0, l1⟩ := hL i (by rw [← hlen]; exact hi)
    exact (l1 _ _).trans (mul_le_mul_of_nonneg_left (hd i hi) l0)

/-- C129, prism models, static solver: if the slopes of the elements, taken as heat flows, would heat no element by more than `q < 1` degrees, the static
solver of a prism model returns temperatures no farther than `q ^ n` times the distance at the start from those that solve their own network. -/
theorem c129_prism_static {m : PModel K} {mesh : Mesh} {layers : Nat} {info : Nat → Nat → Option (Cell K)} {wires : List (Wire K)}
    (hx : Extracted m mesh layers info wires) (hmut : Mutual mesh) (hc : m.Cooled) (hk : FixedK m) {minR : K} (hm : 0 < minR) {envT : K}
    {solve : Network K → List K} (hsize : ∀ net, (solve net).length = net.length)
    (hsolve : ∀ net, Grounded net → Solves net envT fun i => (solve net).getD i 0) {L : Nat → K} (hL : ElemSlopes m L) {net : Network K}
    (hnet : m.build minR (List.replicate m.total envT) = .ok (some net)) {y : Nat → K} (hy : Solves (withHF net L) 0 y) {q : K} (hq0 : 0 ≤ q)
    (hq : ∀ i < m.total, y i ≤ q) (h1 : q < 1) {S : List K} (hS : Consistent (m.build minR) solve m.total S) (limit : K) (maximum : Bool)
    (iteration fuel : Nat) (hi : 1 ≤ iteration) (hf : iteration ≤ fuel) :
    ∃ (n : Nat) (R : List K), 1 ≤ n ∧ n ≤ iteration ∧
      solveStatic (m.build minR) solve m.total envT limit maximum iteration false fuel = some (.ok (some R)) ∧
      (∀ d, Near m.total d (List.replicate m.total envT) S → Near m.total (q ^ n * d) R S) ∧
      (n < iteration → Near m.total (q / (1 - q) * (slack maximum m.total * limit)) R S) := by
  obtain ⟨net', b1, b2, b3, b4⟩ := c129_prism hx hmut hc hk hm hsize hsolve hL (List.replicate m.total envT) (by simp)
  rw [hnet] at b1
  injection b1 with b1
  injection b1 with b1
  subst b1
  have := c129_converges b3 b4 hy hq0 (by rw [b2]; exact hq) h1 (by rw [b2]; exact hS) envT limit maximum iteration fuel hi hf
  rw [b2] at this
  obtain ⟨n, R, a1, a2, a3, a4, a5, _⟩ := this
  exact ⟨n, R, a1, a2, a3, a4, a5⟩

/-- the hypotheses: two layers of two triangles and a bond wire (`exModel`) -/
example : Extracted exModel exMesh 2 exInfo [exWire] ∧ Mutual exMesh ∧ exModel.Cooled ∧ FixedK exModel ∧ ElemSlopes exModel fun _ => 0 := by
  refine ⟨exModel_extracted, exMesh_mutual, exModel_cooled, fun mat t t' => rfl, fun i hi => ⟨le_refl _, fun t t' => ?_⟩⟩
  have : elemPower exModel t i = elemPower exModel t' i := by
    have hi' : i < 5 := by
      have : exModel.total = 5 := by decide +kernel
      omega
    match i, hi' with
    | 0, _ => rfl
    | 1, _ => rfl
    | 2, _ => rfl
    | 3, _ => rfl
    | 4, _ => rfl
  rw [this]
  simp

end Ecad.Converge
