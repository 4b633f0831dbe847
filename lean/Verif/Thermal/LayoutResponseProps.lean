import Verif.Thermal.BalanceProps
import Verif.Thermal.ResponseProps
import Verif.Thermal.ConvergeGridProps
/-!
C134: How the steady temperatures of a layout answer to the powers of its components, to its cooling and to its metal: the laws of networks
(C126) carried over the extraction of the grid model and the building of the network to layouts.
-/
namespace Ecad.LayoutResponse
open Ecad.GridT Ecad.Geom Ecad.Units Ecad.L2C Ecad.Thermal Ecad.GridExt Ecad.Balance Ecad.Response Finset

/-! ## the resistors of a network built by calls -/

section
variable {K : Type} [Field K] [LinearOrder K]

/-- what a call does to the lists of resistors -/
def nsStep (minR : K) (s : List (List (Nat × K))) : Res (Op K) → List (List (Nat × K))
  | .ok .append => s ++ [[]]
  | .ok (.r i j v) => s.modify (min i j) fun n => setNs n (max i j) (max v minR)
  | _ => s

omit [Field K] [LinearOrder K] in
theorem map_modify_ns (a : Network K) (i : Nat) (f : Node K → Node K) (g : List (Nat × K) → List (Nat × K)) (h : ∀ n, (f n).ns = g n.ns) :
    (a.modify i f).map Node.ns = (a.map Node.ns).modify i g := by
  apply List.ext_getElem?
  intro k
  rw [List.getElem?_map, List.getElem?_modify, List.getElem?_modify, List.getElem?_map]
  cases a[k]? with
  | none => rfl
  | some n =>
    by_cases hk : i = k
    · simp [hk, h]
    · simp [hk]

theorem exec_ns {minR : K} {op : Op K} {a a' : Network K} (ha : op.exec minR a = .ok a') : a'.map Node.ns = nsStep minR (a.map Node.ns) (.ok op) := by
  have hid : ∀ (i : Nat) (f : Node K → Node K), (∀ n, (f n).ns = n.ns) → (a.modify i f).map Node.ns = a.map Node.ns := by
    intro i f hf
    rw [map_modify_ns a i f id hf]
    apply List.ext_getElem?
    intro k
    rw [List.getElem?_modify]
    cases (a.map Node.ns)[k]? <;> simp
  cases op <;> simp only [Op.exec, setC, setHF, addHF, setHTC, addHTC, setR_eq, upd_ok] at ha
  case append =>
    simp [appendNode] at ha
    subst ha
    simp [nsStep, Node.default]
  case r i j s =>
    obtain ⟨_, rfl⟩ := ha
    exact map_modify_ns _ _ _ _ fun n => rfl
  all_goals
    obtain ⟨_, rfl⟩ := ha
    exact hid _ _ fun n => rfl

theorem run_ns {minR : K} : ∀ {l : List (Res (Op K))} {a a' : Network K}, run minR a l = .ok a' → a'.map Node.ns = l.foldl (nsStep minR) (a.map Node.ns)
  | [], a, a', h => by simp [run] at h; simp [h]
  | .ub :: _, _, _, h => by simp [run] at h
  | .exn :: _, _, _, h => by simp [run] at h
  | .ok op :: l, a, a', h => by
    rw [run] at h
    cases h1 : op.exec minR a with
    | ub => rw [h1] at h; simp at h
    | exn => rw [h1] at h; simp at h
    | ok n =>
      rw [h1, Res.bind_ok] at h
      rw [run_ns h, exec_ns h1, List.foldl_cons]

/-- calls that set no resistor -/
def Still : Res (Op K) → Prop
  | .ok .append => False
  | .ok (.r ..) => False
  | _ => True

theorem still_ns (minR : K) (l : List (Res (Op K))) (h : ∀ o ∈ l, Still o) (s : List (List (Nat × K))) : l.foldl (nsStep minR) s = s := by
  induction l generalizing s with
  | nil => rfl
  | cons o l ih =>
    rw [List.foldl_cons, ih fun o ho => h o (List.mem_cons_of_mem _ ho)]
    have := h o List.mem_cons_self
    match o, this with
    | .ub, _ => rfl
    | .exn, _ => rfl
    | .ok (.c ..), _ => rfl
    | .ok (.scen ..), _ => rfl
    | .ok (.hf ..), _ => rfl
    | .ok (.addHF ..), _ => rfl
    | .ok (.htc ..), _ => rfl
    | .ok (.addHTC ..), _ => rfl

/-- the same call, or a resistor of the same nodes and a resistance that is not larger, or another capacity -/
inductive Lower : Res (Op K) → Res (Op K) → Prop
  | same (o : Res (Op K)) : Lower o o
  | r (i j : Nat) (v w : K) : w ≤ v → Lower (.ok (.r i j v)) (.ok (.r i j w))
  | c (i : Nat) (v w : K) : Lower (.ok (.c i v)) (.ok (.c i w))

/-- the same node and a resistance that is not larger -/
def Le (e e' : Nat × K) : Prop := e'.1 = e.1 ∧ 0 < e'.2 ∧ e'.2 ≤ e.2

variable [IsStrictOrderedRing K]

theorem setNs_le {l l' : List (Nat × K)} (h : List.Forall₂ Le l l') (j : Nat) {r r' : K} (h0 : 0 < r') (hr : r' ≤ r) :
    List.Forall₂ Le (setNs l j r) (setNs l' j r') := by
  have hf : (UMap.find? l j).isSome = (UMap.find? l' j).isSome := by
    induction h with
    | nil => rfl
    | @cons e e' t t' he _ ih =>
      obtain ⟨a, b⟩ := e
      obtain ⟨a', b'⟩ := e'
      obtain ⟨h1, -, -⟩ := he
      simp only at h1
      subst h1
      unfold UMap.find? at ih ⊢
      by_cases ha : a' = j
      · rw [List.find?_cons_of_pos (by simpa using ha), List.find?_cons_of_pos (by simpa using ha)]
        rfl
      · rw [List.find?_cons_of_neg (by simpa using ha), List.find?_cons_of_neg (by simpa using ha)]
        exact ih
  have hmap : List.Forall₂ Le (l.map fun e => if e.1 = j then (e.1, 1 / (1 / r + 1 / e.2)) else e)
      (l'.map fun e => if e.1 = j then (e.1, 1 / (1 / r' + 1 / e.2)) else e) := by
    rw [List.forall₂_map_left_iff, List.forall₂_map_right_iff]
    refine h.imp fun e e' he => ?_
    obtain ⟨h1, h2, h3⟩ := he
    rw [h1]
    have h2' : 0 < e.2 := h2.trans_le h3
    have h0' : 0 < r := h0.trans_le hr
    split_ifs
    · refine ⟨rfl, by positivity, ?_⟩
      apply one_div_le_one_div_of_le (by positivity)
      exact add_le_add (one_div_le_one_div_of_le h0 hr) (one_div_le_one_div_of_le h2 h3)
    · exact ⟨h1, h2, h3⟩
  have hc : ∀ l : List (Nat × K), UMap.find? l j = none → ¬ UMap.count l j = true := by
    intro l hl hc
    unfold UMap.find? at hl
    unfold UMap.count at hc
    rw [Option.map_eq_none_iff, List.find?_eq_none] at hl
    rw [List.any_eq_true] at hc
    obtain ⟨e, he, hj⟩ := hc
    exact hl e he hj
  unfold setNs
  cases h1 : UMap.find? l j with
  | some v =>
    cases h2 : UMap.find? l' j with
    | some v' => exact hmap
    | none => rw [h1, h2] at hf; simp at hf
  | none =>
    cases h2 : UMap.find? l' j with
    | some v' => rw [h1, h2] at hf; simp at hf
    | none =>
      have e1 : (UMap.emplace l j r).1 = l ++ [(j, r)] := by rw [UMap.emplace, if_neg (hc l h1)]
      have e2 : (UMap.emplace l' j r').1 = l' ++ [(j, r')] := by rw [UMap.emplace, if_neg (hc l' h2)]
      simp only [e1, e2]
      exact Converge.forall₂_append h (.cons ⟨rfl, h0, hr⟩ .nil)

theorem modify_rel {α : Type} {R : α → α → Prop} {f f' : α → α} (hf : ∀ x y, R x y → R (f x) (f' y)) {s s' : List α}
    (h : List.Forall₂ R s s') (i : Nat) : List.Forall₂ R (s.modify i f) (s'.modify i f') := by
  induction h generalizing i with
  | nil => cases i <;> simp
  | cons h1 h2 ih =>
    cases i with
    | zero => exact .cons (hf _ _ h1) h2
    | succ i => exact .cons h1 (ih i)

theorem nsStep_le {minR : K} (hm : 0 < minR) {s s' : List (List (Nat × K))} (h : List.Forall₂ (List.Forall₂ Le) s s') {o o' : Res (Op K)}
    (ho : Lower o o') : List.Forall₂ (List.Forall₂ Le) (nsStep minR s o) (nsStep minR s' o') := by
  have hr : ∀ (i j : Nat) (v w : K), w ≤ v → List.Forall₂ (List.Forall₂ Le) (nsStep minR s (.ok (.r i j v))) (nsStep minR s' (.ok (.r i j w))) := by
    intro i j v w hw
    exact modify_rel (fun x y hxy => setNs_le hxy _ (lt_max_of_lt_right hm) (max_le_max_right _ hw)) h _
  cases ho with
  | r i j v w hw => exact hr i j v w hw
  | c i v w => exact h
  | same =>
    match o with
    | .ub => exact h
    | .exn => exact h
    | .ok (.c ..) => exact h
    | .ok (.scen ..) => exact h
    | .ok (.hf ..) => exact h
    | .ok (.addHF ..) => exact h
    | .ok (.htc ..) => exact h
    | .ok (.addHTC ..) => exact h
    | .ok .append => exact Converge.forall₂_append h (.cons .nil .nil)
    | .ok (.r i j v) => exact hr i j v v le_rfl

theorem nsRun_le {minR : K} (hm : 0 < minR) {l l' : List (Res (Op K))} (hl : List.Forall₂ Lower l l') : ∀ {s s' : List (List (Nat × K))},
    List.Forall₂ (List.Forall₂ Le) s s' → List.Forall₂ (List.Forall₂ Le) (l.foldl (nsStep minR) s) (l'.foldl (nsStep minR) s') := by
  induction hl with
  | nil => intro s s' h; exact h
  | cons h1 _ ih => intro s s' h; exact ih (nsStep_le hm h h1)

/-! ## two grid models of the same cells -/

/-- a bond wire of the same ends and no larger value -/
def JLe (j j' : Size3 × Size3 × K) : Prop := j.1 = j'.1 ∧ j.2.1 = j'.2.1 ∧ j'.2.2 ≤ j.2.2

/-- two models of the same cells and ends of bond wires, the second with no less metal in any cell -/
structure Filled (m m' : GModel K) : Prop where
  size : m.size = m'.size
  resX : m.resX = m'.resX
  resY : m.resY = m'.resY
  scaleH : m.scaleH = m'.scaleH
  layers : m.layers.length = m'.layers.length
  lenZ : ∀ z, m.lenZ z = m'.lenZ z
  jumps : List.Forall₂ JLe m.jumps m'.jumps
  fraction : ∀ g, InGrid m.size3 g → m.fraction g ≤ m'.fraction g

theorem getRes_le {k1 k1' z1 k2 k2' z2 area : K} (h1 : 0 < k1) (h2 : 0 < k2) (hk1 : k1 ≤ k1') (hk2 : k2 ≤ k2') (hz1 : 0 ≤ z1) (hz2 : 0 ≤ z2)
    (ha : 0 ≤ area) : getRes k1' z1 k2' z2 area ≤ getRes k1 z1 k2 z2 area := by
  unfold getRes
  exact div_le_div_of_nonneg_right (add_le_add (div_le_div_of_nonneg_left hz1 h1 hk1) (div_le_div_of_nonneg_left hz2 h2 hk2)) ha

theorem resTo_le {m m' : GModel K} (h : Filled m m') (hp : m.Physical) {g k : Size3} (hg : InGrid m.size3 g) (hk : InGrid m.size3 k)
    (o : Orient) : m'.resTo g k o ≤ m.resTo g k o := by
  have mono : ∀ g, InGrid m.size3 g → m.k g ≤ m'.k g := by
    intro g hg
    have := h.fraction g hg
    unfold GModel.k metalK dielK
    linarith
  have lx : m'.lenX = m.lenX := by unfold GModel.lenX; rw [h.resX, h.scaleH]
  have ly : m'.lenY = m.lenY := by unfold GModel.lenY; rw [h.resY, h.scaleH]
  have px : 0 < m.lenX := mul_pos hp.resX hp.scaleH
  have py : 0 < m.lenY := mul_pos hp.resY hp.scaleH
  have pz := lenZ_pos hp hg.2.2
  have pz' := lenZ_pos hp hk.2.2
  have k1 := k_pos hp (g := g) hg.2.2
  have k2 := k_pos hp (g := k) hk.2.2
  have hz : 0 ≤ (1 / 2 : K) * m.lenZ g.z ∧ 0 ≤ (1 / 2 : K) * m.lenZ k.z := ⟨by positivity, by positivity⟩
  cases o <;> simp only [GModel.resTo, GModel.areaX, GModel.areaY, GModel.areaZ, lx, ly, ← h.lenZ]
  all_goals
    refine getRes_le k1 k2 (mono g hg) (mono k hk) ?_ ?_ ?_ <;> positivity

theorem link_lower {m m' : GModel K} (h : Filled m m') (hp : m.Physical) (hm : Fits m.size3) {g : Size3} (hg : InGrid m.size3 g) (i : Nat) (o : Orient) :
    List.Forall₂ Lower (m.link i g o) (m'.link i g o) := by
  have hs : m'.size3 = m.size3 := by unfold GModel.size3; rw [h.size, h.layers]
  unfold GModel.link
  rw [hs, ← h.size]
  dsimp only
  split_ifs with hv
  · have hk := ((neighbor_iff hm hg o (neighbor m.size3 g o)).1 ⟨hv, rfl⟩).1
    exact .cons (.r _ _ _ _ (resTo_le h hp hg hk o)) .nil
  · exact .nil

theorem cells_lower {m m' : GModel K} (h : Filled m m') (hp : m.Physical) (hm : Fits m.size3) :
    List.Forall₂ Lower ((List.range m.total).flatMap m.cellOps) ((List.range m'.total).flatMap m'.cellOps) := by
  have ht : m'.total = m.total := by unfold GModel.total; rw [h.size, h.layers]
  rw [ht]
  refine Converge.forall₂_flatMap _ fun i hi => ?_
  rw [List.mem_range] at hi
  obtain ⟨g, h1, h2, h3⟩ := (c33_numbering m.size3).2 i hi
  have h4 : gridIndex m.size i = .ok g := h2
  unfold GModel.cellOps
  rw [← h.size, h4]
  refine .cons (.c _ _ _) (Converge.forall₂_append (Converge.forall₂_append ?_ ?_) ?_) <;> exact link_lower h hp hm h1 i _

/-- all powers are tables -/
def Tables (m : GModel K) : Prop := ∀ l ∈ m.layers, ∀ p ∈ l.powers, ∃ t, p = Power.grid t

omit [IsStrictOrderedRing K] in
theorem still_powers {ip : List (K × K) → K → Res K} {m : GModel K} (iniT : List K) :
    ∀ (ps : List (Nat × Power K)) (n : Nat), (∀ p ∈ ps, ∃ t, p.2 = Power.grid t) → ∀ o ∈ m.powersOps ip iniT n ps, Still o := by
  intro ps
  induction ps with
  | nil => intro n _ o ho; simp [GModel.powersOps] at ho
  | cons p ps ih =>
    intro n hp o ho
    obtain ⟨z, p⟩ := p
    rw [GModel.powersOps, List.mem_append] at ho
    rcases ho with ho | ho
    · obtain ⟨t, ht⟩ := hp _ List.mem_cons_self
      simp only at ht
      subst ht
      rw [GModel.powerOps, List.mem_flatMap] at ho
      obtain ⟨c, _, ho⟩ := ho
      unfold GModel.heatOps at ho
      dsimp only at ho
      split at ho
      · simp at ho; subst ho; trivial
      · split at ho <;> simp at ho <;> subst ho <;> trivial
    · exact ih _ (fun q hq => hp q (List.mem_cons_of_mem _ hq)) o ho

omit [IsStrictOrderedRing K] in
theorem still_bcs (m : GModel K) : ∀ o ∈ m.bcs.flatMap (fun b => m.bcOps b.1 b.2.1 b.2.2), Still o := by
  intro o ho
  rw [List.mem_flatMap] at ho
  obtain ⟨b, _, ho⟩ := ho
  unfold GModel.bcOps at ho
  split at ho
  · simp at ho
  · rw [List.mem_map] at ho
    obtain ⟨c, _, rfl⟩ := ho
    unfold GModel.bcOp
    split <;> trivial

/-- the resistors of the networks of two models of the same cells -/
theorem build_lower {minR : K} (hmin : 0 < minR) {ip : List (K × K) → K → Res K} {m m' : GModel K} (h : Filled m m') (hp : m.Physical) (hm : Fits m.size3)
    (ht : Tables m) (ht' : Tables m') {T T' : List K} {a b : Network K} (ha : m.build minR ip T = .ok (some a))
    (hb : m'.build minR ip T' = .ok (some b)) : List.Forall₂ (List.Forall₂ Le) (a.map Node.ns) (b.map Node.ns) := by
  obtain ⟨l1, r1⟩ := build_run ha
  obtain ⟨l2, r2⟩ := build_run hb
  have hpw : ∀ (m : GModel K), Tables m → ∀ p ∈ m.powers, ∃ t, p.2 = Power.grid t := by
    intro m ht p hp
    obtain ⟨z, p⟩ := p
    obtain ⟨_, l, hl, hpl⟩ := mem_powers hp
    exact ht l hl p hpl
  have htot : m'.total = m.total := by unfold GModel.total; rw [h.size, h.layers]
  rw [run_ns r1, run_ns r2]
  unfold GModel.ops
  rw [List.foldl_append, List.foldl_append, List.foldl_append (l' := m'.bcs.flatMap _), List.foldl_append (l' := m'.powersOps _ _ _ _),
    still_ns minR _ (still_bcs m), still_ns minR _ (still_bcs m'), still_ns minR _ (still_powers T _ _ (hpw m ht)),
    still_ns minR _ (still_powers T' _ _ (hpw m' ht'))]
  refine nsRun_le hmin (Converge.forall₂_append (cells_lower h hp hm) ?_) ?_
  · have key : ∀ js js' : List (Size3 × Size3 × K), List.Forall₂ JLe js js' → List.Forall₂ Lower (js.flatMap (m.jumpOps T)) (js'.flatMap (m'.jumpOps T')) := by
      intro js js' hj
      induction hj with
      | nil => exact .nil
      | @cons j j' t t' h1 _ ih =>
        rw [List.flatMap_cons, List.flatMap_cons]
        refine Converge.forall₂_append ?_ ih
        obtain ⟨e1, e2, e3⟩ := h1
        unfold GModel.jumpOps
        dsimp only
        rw [l1, l2, htot, ← h.size, ← e1, ← e2]
        split_ifs
        · exact .nil
        · refine .cons (.r _ _ _ _ (mul_le_mul_of_nonneg_left e3 ?_)) .nil
          unfold metalK
          norm_num
        · exact Converge.forall₂_refl Lower.same _
    exact key _ _ h.jumps
  · rw [htot]
    have : ∀ n : Nat, List.Forall₂ (List.Forall₂ (Le (K := K))) ((Network.new noScen n).map Node.ns) ((Network.new noScen n).map Node.ns) := by
      intro n
      unfold Network.new
      rw [List.map_replicate]
      induction n with
      | zero => exact .nil
      | succ n ih => rw [List.replicate_succ]; exact .cons .nil ih
    exact this _

omit [IsStrictOrderedRing K] in
theorem le_antisymm₂ {l l' : List (Nat × K)} (h : List.Forall₂ Le l l') (h' : List.Forall₂ Le l' l) : l = l' := by
  induction h with
  | nil => rfl
  | cons h1 _ ih =>
    cases h' with
    | cons h2 h3 =>
      rw [ih h3]
      congr 1
      exact Prod.ext h1.1.symm (le_antisymm h2.2.2 h1.2.2)

omit [IsStrictOrderedRing K] in
theorem le_antisymm₃ {l l' : List (List (Nat × K))} (h : List.Forall₂ (List.Forall₂ Le) l l') (h' : List.Forall₂ (List.Forall₂ Le) l' l) : l = l' := by
  induction h with
  | nil => rfl
  | cons h1 _ ih =>
    cases h' with
    | cons h2 h3 => rw [ih h3, le_antisymm₂ h1 h2]

end

/-! ## specification -/

variable {S : Type}

/-- two layouts of the same units, tiles and layers -/
structure Frame (a b : In S) : Prop where
  units : a.units = b.units
  x : a.x = b.x
  y : a.y = b.y
  layers : a.layers = b.layers

/-- the second bond wire is the first, not thicker -/
def Thinner (v v' : Wire) : Prop := v.s = v'.s ∧ v.e = v'.e ∧ 0 ≤ v'.radius ∧ v'.radius ≤ v.radius

/-- `x` are steady temperatures of a layout: they solve the network built of its model for some temperatures before -/
def Steady (dist : Int × Int → Int × Int → ℚ) (pi : ℚ) (part : Box → S → ℚ) (minR : ℚ) (ip : List (ℚ × ℚ) → ℚ → Res ℚ) (refT : ℚ) (a : In S)
    (x : Nat → ℚ) : Prop :=
  ∃ m T net, extract dist pi part a = .ok m ∧ m.build minR ip T = .ok (some net) ∧ Solves net refT x

/-- the number of cells -/
def cellCount (a : In S) : Nat := a.x.grid * a.y.grid * a.layers.length

/-- the number of a cell -/
def cell (a : In S) (z i j : Nat) : Nat := a.x.grid * a.y.grid * z + a.y.grid * i + j

/-- the loss power of each component does not depend on the temperature and is that of `w` -/
def Constant (cs : List (GridPower.Comp ℚ)) (w : GridPower.Comp ℚ → ℚ) : Prop := ∀ c ∈ cs, ∀ e ∈ c.loss, e.2 = w c

/-- the mean over the tiles a component touches, on its layer -/
noncomputable def mean (a : In S) (c : GridPower.Comp ℚ) (f : Nat → ℚ) : ℚ :=
  (∑ g ∈ GridPower.tiles a.x a.y c, f (cell a (a.layers.findIdx fun l => decide ((l.id : Int) = c.layer)) g.1 g.2)) / (GridPower.tiles a.x a.y c).card

open Classical in
/-- the sum over the components that heat of their power times the mean rise of the temperature over their tiles -/
noncomputable def weighted (a : In S) (cs : List (GridPower.Comp ℚ)) (w : GridPower.Comp ℚ → ℚ) (refT : ℚ) (x : Nat → ℚ) : ℚ :=
  (cs.map fun c => if Heats a c then w c * mean a c fun k => x k - refT else 0).sum

/-- the second component is the first with powers that are not less -/
def Stronger (c c' : GridPower.Comp ℚ) : Prop :=
  c.layer = c'.layer ∧ c.box = c'.box ∧ (c.loss = [] → ∀ e ∈ c'.loss, 0 ≤ e.2) ∧ (c'.loss = [] → ∀ e ∈ c.loss, e.2 ≤ 0) ∧
    ∀ e ∈ c.loss, ∀ e' ∈ c'.loss, e.2 ≤ e'.2

/-- the second component is the first with `r` times the power -/
def Scaled (w : GridPower.Comp ℚ → ℚ) (r : ℚ) (c c' : GridPower.Comp ℚ) : Prop :=
  c.layer = c'.layer ∧ c.box = c'.box ∧ (c.loss = [] ↔ c'.loss = []) ∧ w c' = r * w c

/-! ## networks of layouts -/

theorem layer_get {dist : Int × Int → Int × Int → ℚ} {pi : ℚ} {part : Box → S → ℚ} {a : In S} {user data : ℚ} (h : Proper a user data)
    {m : GModel ℚ} (hm : extract dist pi part a = .ok m) : m.layers.length = a.layers.length ∧
      ∀ (z : Nat) (t : TLayer ℚ), m.layers[z]? = some t → ∃ l, a.layers[z]? = some l ∧ t.thickness = thickness a.units l.thick ∧
        ∀ i j, t.fraction i j = metal part a.nets a.prims l.id (tile a.x a.y i j) := by
  have ht' : ∀ l ∈ a.layers, 0 ≤ thickness a.units l.thick := by
    intro l hl
    rw [h.units, thickness_make h.user.ne' h.data.ne']
    exact (mul_pos (h.thick l hl) h.user).le
  obtain ⟨l1, l2, l3⟩ := addLayers_eq part a a.layers ht' h.ids
  obtain ⟨pm, h1, h2, h3, h4, h5, h6, h7, h8, h9, h10⟩ := extract_parts hm
  obtain ⟨p1, p2⟩ := addPowers_get h3
  have e1 : (addLayers part a).1 = a.layers.map (tlayer part a) := l1
  have hlen : m.layers.length = a.layers.length := by rw [p1, e1, List.length_map]
  refine ⟨hlen, fun z t hz => ?_⟩
  have hz' : z < a.layers.length := by
    rw [← hlen]
    exact (List.getElem?_eq_some_iff.1 hz).1
  have := p2 z (tlayer part a a.layers[z]) (by rw [e1, List.getElem?_map, List.getElem?_eq_getElem hz']; rfl)
  rw [hz, Option.some.injEq] at this
  refine ⟨a.layers[z], List.getElem?_eq_getElem hz', by rw [this]; rfl, fun i j => ?_⟩
  rw [this]
  exact fraction_eq _ _ _ _ _ _ _ _

section
variable {dist : Int × Int → Int × Int → ℚ} {pi : ℚ} {part : Box → S → ℚ} {a b : In S} {user data : ℚ}

/-- the bond wires of two layouts as those of their models -/
def Wired (dist : Int × Int → Int × Int → ℚ) (pi : ℚ) (a b : In S) : Prop :=
  ∀ js js', PrismT.mapRes (jump dist pi a) a.wires = .ok js → PrismT.mapRes (jump dist pi b) b.wires = .ok js' → List.Forall₂ JLe js js'

theorem wired_eq (hf : Frame a b) (hw : a.wires = b.wires) : Wired dist pi a b := by
  intro js js' h h'
  have : jump dist pi a = jump dist pi b := by
    funext w
    unfold jump
    rw [hf.units, hf.x, hf.y]
  rw [this, hw, h', Res.ok.injEq] at h
  rw [h]
  exact Converge.forall₂_refl (fun j => ⟨rfl, rfl, le_rfl⟩) _

theorem jump_ok {v : Wire} {j : Size3 × Size3 × ℚ} (h : jump dist pi a v = .ok j) : ∃ i k, cellOf a.x a.y v.s = .ok i ∧ cellOf a.x a.y v.e = .ok k ∧
    j = (⟨i.x, i.y, 0⟩, ⟨k.x, k.y, 0⟩, pi * toUnitIn a.units (v.radius * scale2Coord a.units) 1 * toUnitIn a.units (v.radius * scale2Coord a.units) 1 /
      toUnitIn a.units (dist v.s v.e) 1) := by
  unfold jump at h
  dsimp only at h
  cases h1 : cellOf a.x a.y v.s with
  | ub => rw [h1] at h; simp at h
  | exn => rw [h1] at h; simp at h
  | ok i =>
    rw [h1, Res.bind_ok] at h
    cases h2 : cellOf a.x a.y v.e with
    | ub => rw [h2] at h; simp at h
    | exn => rw [h2] at h; simp at h
    | ok k =>
      rw [h2, Res.bind_ok, Res.ok.injEq] at h
      exact ⟨i, k, rfl, rfl, h.symm⟩

theorem wired_thin (h : Proper a user data) (hf : Frame a b) (hw : List.Forall₂ Thinner a.wires b.wires) (hpi : 0 ≤ pi) (hd : ∀ p q, 0 ≤ dist p q) :
    Wired dist pi a b := by
  intro js js' h1 h2
  have g1 := mapRes_ok _ _ h1
  have g2 := mapRes_ok _ _ h2
  have hs : 0 ≤ a.units.precision := by rw [h.units]; exact h.data.le
  have hsc : 0 ≤ scale2Coord a.units := by
    rw [h.units]
    unfold scale2Coord Units.make
    have := h.user
    have := h.data
    positivity
  have hu : ∀ v : ℚ, 0 ≤ v → 0 ≤ toUnitIn a.units v 1 := by
    intro v hv
    unfold toUnitIn
    positivity
  clear h1 h2
  generalize a.wires = ws at hw g1
  generalize b.wires = ws' at hw g2
  induction hw generalizing js js' with
  | nil => cases g1; cases g2; exact .nil
  | @cons v v' t t' hv _ ih =>
    cases g1 with
    | @cons _ j _ js1 g1 g1' =>
      cases g2 with
      | @cons _ j' _ js2 g2 g2' =>
        refine .cons ?_ (ih _ _ g1' g2')
        obtain ⟨i, k, e1, e2, rfl⟩ := jump_ok g1
        obtain ⟨i', k', e1', e2', rfl⟩ := jump_ok g2
        obtain ⟨s1, s2, s3, s4⟩ := hv
        rw [← hf.x, ← hf.y, ← s1, e1, Res.ok.injEq] at e1'
        rw [← hf.x, ← hf.y, ← s2, e2, Res.ok.injEq] at e2'
        subst e1'; subst e2'
        refine ⟨rfl, rfl, ?_⟩
        dsimp only
        rw [← hf.units, ← s1, ← s2]
        have hr : toUnitIn a.units (v'.radius * scale2Coord a.units) 1 ≤ toUnitIn a.units (v.radius * scale2Coord a.units) 1 := by
          unfold toUnitIn
          gcongr
        have h0 := hu _ (mul_nonneg s3 hsc)
        refine div_le_div_of_nonneg_right ?_ (hu _ (hd _ _))
        rw [mul_assoc, mul_assoc]
        exact mul_le_mul_of_nonneg_left (mul_self_le_mul_self h0 hr) hpi

theorem filled (h : Proper a user data) (h' : Proper b user data) (hf : Frame a b) (hwire : Wired dist pi a b)
    (hmet : ∀ l ∈ a.layers, ∀ i < a.x.grid, ∀ j < a.y.grid, metal part a.nets a.prims l.id (tile a.x a.y i j) ≤ metal part b.nets b.prims l.id (tile a.x a.y i j))
    {m m' : GModel ℚ} (hm : extract dist pi part a = .ok m) (hm' : extract dist pi part b = .ok m') : Filled m m' := by
  obtain ⟨pm, h1, h2, h3, h4, h5, h6, h7, h8, h9, h10⟩ := extract_parts hm
  obtain ⟨pm', h1', h2', h3', h4', h5', h6', h7', h8', h9', h10'⟩ := extract_parts hm'
  obtain ⟨g1, g2⟩ := layer_get h hm
  obtain ⟨g1', g2'⟩ := layer_get h' hm'
  have hpr : a.units.precision = data := by rw [h.units]; rfl
  have hpr' : b.units.precision = data := by rw [h'.units]; rfl
  obtain ⟨r1, r2⟩ := h10 (hpr ▸ h.data.le) h.strideX h.strideY
  obtain ⟨r1', r2'⟩ := h10' (hpr' ▸ h'.data.le) h'.strideX h'.strideY
  have hlen : m.layers.length = m'.layers.length := by rw [g1, g1', hf.layers]
  have both : ∀ z < m.layers.length, ∃ l t t', a.layers[z]? = some l ∧ m.layers[z]? = some t ∧ m'.layers[z]? = some t' ∧
      t.thickness = t'.thickness ∧ (∀ i j, t.fraction i j = metal part a.nets a.prims l.id (tile a.x a.y i j)) ∧
      ∀ i j, t'.fraction i j = metal part b.nets b.prims l.id (tile a.x a.y i j) := by
    intro z hz
    have e1 := List.getElem?_eq_getElem hz
    have e2 := List.getElem?_eq_getElem (hlen ▸ hz)
    obtain ⟨l, q1, q2, q3⟩ := g2 z _ e1
    obtain ⟨l', q1', q2', q3'⟩ := g2' z _ e2
    rw [← hf.layers, q1, Option.some.injEq] at q1'
    subst q1'
    refine ⟨l, _, _, q1, e1, e2, by rw [q2, q2', hf.units], q3, ?_⟩
    rw [hf.x, hf.y]
    exact q3'
  refine ⟨by rw [h6, h6', hf.x, hf.y], by rw [r1, r1', hf.x, hf.units], by rw [r2, r2', hf.y, hf.units], by rw [h7, h7'], hlen, ?_, ?_, ?_⟩
  · intro z
    unfold GModel.lenZ
    by_cases hz : z < m.layers.length
    · obtain ⟨l, t, t', _, e1, e2, e3, _⟩ := both z hz
      rw [e1, e2, Option.map_some, Option.map_some, e3]
    · rw [List.getElem?_eq_none (by omega), List.getElem?_eq_none (by omega)]
  · exact hwire _ _ h1 h1'
  · intro g hg
    obtain ⟨gx, gy, gz⟩ := hg
    unfold GModel.size3 at gx gy gz
    rw [h6] at gx gy
    obtain ⟨l, t, t', e0, e1, e2, _, e3, e4⟩ := both g.z gz
    unfold GModel.fraction
    rw [e1, e2, Option.map_some, Option.map_some, Option.getD_some, Option.getD_some, e3, e4]
    exact hmet l (List.mem_of_getElem? e0) _ gx _ gy

/-- what is known of the network of a layout -/
structure Net (dist : Int × Int → Int × Int → ℚ) (pi : ℚ) (part : Box → S → ℚ) (minR : ℚ) (ip : List (ℚ × ℚ) → ℚ → Res ℚ) (a : In S) (data : ℚ)
    (net : Network ℚ) : Prop where
  ex : ∃ m pm lyr T, extract dist pi part a = .ok m ∧ Made a data m pm lyr ∧ m.build minR ip T = .ok (some net)
  ground : Grounded net
  length : net.length = cellCount a

theorem bounds (cs : List (GridPower.Comp ℚ)) : ∃ lo hi : GridPower.Comp ℚ → ℚ, (∀ c ∈ cs, ∀ e ∈ c.loss, lo c ≤ e.2 ∧ e.2 ≤ hi c) ∧
    (∀ c, c.loss ≠ [] → (∃ e ∈ c.loss, e.2 = lo c) ∧ ∃ e ∈ c.loss, e.2 = hi c) := by
  have hmax : ∀ l : List (ℚ × ℚ), l ≠ [] → ∃ v, (∀ e ∈ l, e.2 ≤ v) ∧ ∃ e ∈ l, e.2 = v := by
    intro l hl
    induction l with
    | nil => exact absurd rfl hl
    | cons d l ih =>
      by_cases hl' : l = []
      · subst hl'
        exact ⟨d.2, by simp, d, by simp, rfl⟩
      · obtain ⟨v, v1, e, he, hev⟩ := ih hl'
        by_cases hd : d.2 ≤ v
        · refine ⟨v, ?_, e, by simp [he], hev⟩
          intro e' he'
          rcases List.mem_cons.1 he' with rfl | he'
          · exact hd
          · exact v1 e' he'
        · refine ⟨d.2, ?_, d, by simp, rfl⟩
          intro e' he'
          rcases List.mem_cons.1 he' with rfl | he'
          · exact le_rfl
          · exact (v1 e' he').trans (not_le.1 hd).le
  have hmin : ∀ l : List (ℚ × ℚ), l ≠ [] → ∃ v, (∀ e ∈ l, v ≤ e.2) ∧ ∃ e ∈ l, e.2 = v := by
    intro l hl
    obtain ⟨v, v1, e, he, hev⟩ := hmax (l.map fun e => (e.1, -e.2)) (by simpa using hl)
    rw [List.mem_map] at he
    obtain ⟨d, hd, rfl⟩ := he
    refine ⟨-v, fun e he => ?_, d, hd, by simp only at hev; linarith⟩
    have := v1 _ (List.mem_map_of_mem (f := fun e : ℚ × ℚ => (e.1, -e.2)) he)
    simp only at this
    linarith
  classical
  refine ⟨fun c => if hc : c.loss ≠ [] then (hmin c.loss hc).choose else 0, fun c => if hc : c.loss ≠ [] then (hmax c.loss hc).choose else 0, ?_, ?_⟩
  · intro c _ e he
    have hne : c.loss ≠ [] := List.ne_nil_of_mem he
    simp only [dif_pos hne]
    exact ⟨(hmin c.loss hne).choose_spec.1 e he, (hmax c.loss hne).choose_spec.1 e he⟩
  · intro c hne
    simp only [dif_pos hne]
    exact ⟨(hmin c.loss hne).choose_spec.2, (hmax c.loss hne).choose_spec.2⟩

theorem open_steady (h : Proper a user data) {ip : List (ℚ × ℚ) → ℚ → Res ℚ} (hip : Pchip ip) {minR : ℚ} (hm : 0 < minR) {refT : ℚ} {x : Nat → ℚ}
    (hx : Steady dist pi part minR ip refT a x) : ∃ net, Net dist pi part minR ip a data net ∧ Solves net refT x := by
  obtain ⟨m, T, net, h1, h2, h3⟩ := hx
  obtain ⟨m', pm, lyr, h1', M⟩ := made (dist := dist) (pi := pi) (part := part) h
  rw [h1, Res.ok.injEq] at h1'
  subst h1'
  obtain ⟨lo, hi, hb, _⟩ := bounds a.comps
  obtain ⟨net', hbd, hg, -⟩ := c62_solvable (sound h M hip hb) M.physical M.cooled hm (build_run h2).1 refT
  rw [h2, Res.ok.injEq, Option.some.injEq] at hbd
  subst hbd
  exact ⟨net, ⟨⟨m, pm, lyr, T, h1, M, h2⟩, hg, (balance h M hip hb h2 hg h3).1⟩, h3⟩

theorem ns_lower (h : Proper a user data) (h' : Proper b user data) (hf : Frame a b) (hwire : Wired dist pi a b)
    (hmet : ∀ l ∈ a.layers, ∀ i < a.x.grid, ∀ j < a.y.grid, metal part a.nets a.prims l.id (tile a.x a.y i j) ≤ metal part b.nets b.prims l.id (tile a.x a.y i j))
    {ip : List (ℚ × ℚ) → ℚ → Res ℚ} {minR : ℚ} (hmin : 0 < minR) {net net' : Network ℚ} (hn : Net dist pi part minR ip a data net)
    (hn' : Net dist pi part minR ip b data net') : List.Forall₂ (List.Forall₂ Le) (net.map Node.ns) (net'.map Node.ns) := by
  obtain ⟨m, pm, lyr, T, h1, M, h2⟩ := hn.ex
  obtain ⟨m', pm', lyr', T', h1', M', h2'⟩ := hn'.ex
  have tab : ∀ {a : In S} {m : GModel ℚ} {pm lyr}, Made a data m pm lyr → Tables m := by
    intro a m pm lyr M l hl p hp
    obtain ⟨z, hz⟩ := List.getElem?_of_mem hl
    rw [M.powers z l hz, List.mem_map] at hp
    obtain ⟨t, _, rfl⟩ := hp
    exact ⟨t, rfl⟩
  refine build_lower hmin (filled h h' hf hwire hmet h1 h1') M.physical ?_ (tab M) (tab M') h2 h2'
  unfold Fits GModel.size3
  rw [M.size, M.layers]
  exact h.size

theorem frame_symm (h : Frame a b) : Frame b a := ⟨h.units.symm, h.x.symm, h.y.symm, h.layers.symm⟩

theorem ns_same (h : Proper a user data) (h' : Proper b user data) (hf : Frame a b) (hwires : a.wires = b.wires) (hnets : a.nets = b.nets) (hprims : a.prims = b.prims)
    {ip : List (ℚ × ℚ) → ℚ → Res ℚ} {minR : ℚ} (hmin : 0 < minR) {net net' : Network ℚ} (hn : Net dist pi part minR ip a data net)
    (hn' : Net dist pi part minR ip b data net') : net.map Node.ns = net'.map Node.ns := by
  refine le_antisymm₃ (ns_lower h h' hf (wired_eq hf hwires) ?_ hmin hn hn')
    (ns_lower h' h (frame_symm hf) (wired_eq (frame_symm hf) hwires.symm) ?_ hmin hn' hn)
  · intro l _ i _ j _
    rw [hnets, hprims]
  · intro l _ i _ j _
    rw [hnets, hprims]

theorem ns_of_map {net net' : Network ℚ} (h : net.map Node.ns = net'.map Node.ns) :
    ∀ (i : Nat) (n n' : Node ℚ), net[i]? = some n → net'[i]? = some n' → n.ns = n'.ns := by
  intro i n n' hn hn'
  have := congrArg (fun l => l[i]?) h
  simp only [List.getElem?_map, hn, hn', Option.map_some, Option.some.injEq] at this
  exact this

/-- every number below the count is that of a cell -/
theorem cell_ex (a : In S) {k : Nat} (hk : k < cellCount a) : ∃ z i j, z < a.layers.length ∧ i < a.x.grid ∧ j < a.y.grid ∧ k = cell a z i j := by
  obtain ⟨g, hgm, _, hge⟩ := (c33_numbering ⟨a.x.grid, a.y.grid, a.layers.length⟩).2 k hk
  exact ⟨g.z, g.x, g.y, hgm.2.2, hgm.1, hgm.2.1, hge.symm⟩

theorem beyond (net : Network ℚ) {k : Nat} (hk : net.length ≤ k) : htcOf net k = 0 ∧ hfOf net k = 0 := by
  unfold htcOf hfOf
  rw [List.getElem?_eq_none hk]
  exact ⟨rfl, rfl⟩

open Classical in
/-- what a component of power `w c` adds to a cell -/
noncomputable def heat (a : In S) (w : GridPower.Comp ℚ → ℚ) (z i j : Nat) (c : GridPower.Comp ℚ) : ℚ :=
  if (c.loss ≠ [] ∧ c.box ≠ none ∧ ∃ l, a.layers[z]? = some l ∧ (l.id : Int) = c.layer) ∧ (i, j) ∈ GridPower.tiles a.x a.y c then
    w c / ((GridPower.tiles a.x a.y c).card : ℚ) else 0

theorem share_heat {m : GModel ℚ} {pm : List (Nat × Table ℚ)} {lyr : List (Int × Nat)} (M : Made a data m pm lyr) (w : GridPower.Comp ℚ → ℚ)
    (z i j : Nat) (c : GridPower.Comp ℚ) : GridPower.share a.x a.y lyr z 0 i j (flat w c) = heat a w z i j c := by
  unfold GridPower.share heat
  have hon : GridPower.On lyr z (flat w c) ↔ c.loss ≠ [] ∧ c.box ≠ none ∧ ∃ l, a.layers[z]? = some l ∧ (l.id : Int) = c.layer := by
    rw [flat_on]
    unfold GridPower.On
    rw [M.on]
    tauto
  rw [flat_tiles]
  by_cases ho : GridPower.On lyr z (flat w c) ∧ (i, j) ∈ GridPower.tiles a.x a.y c
  · rw [if_pos ho, if_pos ⟨hon.1 ho.1, ho.2⟩, flat_loss w (hon.1 ho.1).1]
  · rw [if_neg ho, if_neg fun hh => ho ⟨hon.2 hh.1, hh.2⟩]

theorem net_values (h : Proper a user data) {ip : List (ℚ × ℚ) → ℚ → Res ℚ} (hip : Pchip ip) {minR : ℚ} {net : Network ℚ}
    (hn : Net dist pi part minR ip a data net) {lo hi : GridPower.Comp ℚ → ℚ} (hb : ∀ c ∈ a.comps, ∀ e ∈ c.loss, lo c ≤ e.2 ∧ e.2 ≤ hi c)
    {z i j : Nat} (hz : z < a.layers.length) (hi' : i < a.x.grid) (hj : j < a.y.grid) :
    htcOf net (cell a z i j) = cool a data ⟨i, j, z⟩ ∧ (a.comps.map fun c => heat a lo z i j c).sum ≤ hfOf net (cell a z i j) ∧
    hfOf net (cell a z i j) ≤ (a.comps.map fun c => heat a hi z i j c).sum := by
  obtain ⟨m, pm, lyr, T, h1, M, h2⟩ := hn.ex
  have := cell_values h M hip hb h2 hi' hj hz
  simp only [share_heat M] at this
  exact this

theorem net_const (h : Proper a user data) {ip : List (ℚ × ℚ) → ℚ → Res ℚ} (hip : Pchip ip) {minR : ℚ} {net : Network ℚ}
    (hn : Net dist pi part minR ip a data net) {w : GridPower.Comp ℚ → ℚ} (hw : Constant a.comps w)
    {z i j : Nat} (hz : z < a.layers.length) (hi' : i < a.x.grid) (hj : j < a.y.grid) :
    hfOf net (cell a z i j) = (a.comps.map fun c => heat a w z i j c).sum := by
  have := net_values h hip hn (lo := w) (hi := w) (fun c hc e he => ⟨(hw c hc e he).ge, (hw c hc e he).le⟩) hz hi' hj
  exact le_antisymm this.2.2 this.2.1

/-- the heat flows against any function of the cells -/
theorem heat_sum (h : Proper a user data) (w : GridPower.Comp ℚ → ℚ) (f : Nat → ℚ) (cs : List (GridPower.Comp ℚ)) :
    ∑ z ∈ range a.layers.length, ∑ i ∈ range a.x.grid, ∑ j ∈ range a.y.grid, (cs.map fun c => heat a w z i j c).sum * f (cell a z i j) =
      (cs.map fun c => open Classical in if Heats a c then w c * mean a c f else 0).sum := by
  induction cs with
  | nil => simp
  | cons c cs ih =>
    simp only [List.map_cons, List.sum_cons, add_mul, Finset.sum_add_distrib]
    rw [ih]
    congr 1
    have key : ∀ z < a.layers.length, (c.loss ≠ [] ∧ c.box ≠ none ∧ ∃ l, a.layers[z]? = some l ∧ (l.id : Int) = c.layer) →
        z = a.layers.findIdx fun l => decide ((l.id : Int) = c.layer) := by
      rintro z hz ⟨-, -, l, hl, hid⟩
      have hlt : (a.layers.findIdx fun l => decide ((l.id : Int) = c.layer)) < a.layers.length :=
        List.findIdx_lt_length_of_exists ⟨l, List.mem_of_getElem? hl, by simpa using hid⟩
      have hp := List.findIdx_getElem (w := hlt)
      rw [decide_eq_true_eq] at hp
      have hnd := List.nodup_iff_injective_get.1 h.ids
      have : (⟨z, by simpa using hz⟩ : Fin (a.layers.map Layer.id).length) =
          ⟨a.layers.findIdx fun l => decide ((l.id : Int) = c.layer), by rw [List.length_map]; exact hlt⟩ := by
        apply hnd
        obtain ⟨_, e1⟩ := List.getElem?_eq_some_iff.1 hl
        simp only [List.get_eq_getElem, List.getElem_map, e1]
        have : (l.id : Int) = (a.layers[a.layers.findIdx fun l => decide ((l.id : Int) = c.layer)]).id := by rw [hid, hp]
        exact_mod_cast this
      exact congrArg Fin.val this
    have inner : ∀ z, (∑ i ∈ range a.x.grid, ∑ j ∈ range a.y.grid, heat a w z i j c * f (cell a z i j)) =
        open Classical in if c.loss ≠ [] ∧ c.box ≠ none ∧ ∃ l, a.layers[z]? = some l ∧ (l.id : Int) = c.layer then
          w c * ((∑ g ∈ GridPower.tiles a.x a.y c, f (cell a z g.1 g.2)) / (GridPower.tiles a.x a.y c).card) else 0 := by
      intro z
      split_ifs with ho
      · rw [← Finset.sum_product' (range a.x.grid) (range a.y.grid) fun i j => heat a w z i j c * f (cell a z i j)]
        have hsub : GridPower.tiles a.x a.y c ⊆ range a.x.grid ×ˢ range a.y.grid := by
          classical
          unfold GridPower.tiles
          exact Finset.filter_subset _ _
        rw [← Finset.sum_subset hsub]
        · rw [div_eq_mul_inv, Finset.sum_mul, Finset.mul_sum]
          refine Finset.sum_congr rfl fun g hg => ?_
          unfold heat
          rw [if_pos ⟨ho, hg⟩]
          ring
        · intro g _ hg
          unfold heat
          rw [if_neg fun hh => hg hh.2, zero_mul]
      · refine Finset.sum_eq_zero fun i _ => Finset.sum_eq_zero fun j _ => ?_
        unfold heat
        rw [if_neg fun hh => ho hh.1, zero_mul]
    rw [Finset.sum_congr rfl fun z _ => inner z]
    by_cases hh : Heats a c
    · rw [if_pos hh]
      obtain ⟨h1, h2, l, hl, hid⟩ := hh
      obtain ⟨k, hk⟩ := List.getElem?_of_mem hl
      have hkl := (List.getElem?_eq_some_iff.1 hk).1
      have hon : c.loss ≠ [] ∧ c.box ≠ none ∧ ∃ l, a.layers[k]? = some l ∧ (l.id : Int) = c.layer := ⟨h1, h2, l, hk, hid⟩
      have hk' := key k hkl hon
      rw [Finset.sum_eq_single k]
      · rw [if_pos hon]
        unfold mean
        rw [← hk']
      · intro z hz hne
        rw [if_neg]
        intro ho
        exact hne ((key z (Finset.mem_range.1 hz) ho).trans hk'.symm)
      · intro hn
        exact absurd (Finset.mem_range.2 hkl) hn
    · rw [if_neg hh]
      refine Finset.sum_eq_zero fun z _ => ?_
      rw [if_neg]
      rintro ⟨h1, h2, l, hl, hid⟩
      exact hh ⟨h1, h2, l, List.mem_of_getElem? hl, hid⟩

theorem net_weighted (h : Proper a user data) {ip : List (ℚ × ℚ) → ℚ → Res ℚ} (hip : Pchip ip) {minR : ℚ} {net : Network ℚ}
    (hn : Net dist pi part minR ip a data net) {w : GridPower.Comp ℚ → ℚ} (hw : Constant a.comps w) (refT : ℚ) (x : Nat → ℚ) :
    ∑ k ∈ range net.length, hfOf net k * (x k - refT) = weighted a a.comps w refT x := by
  rw [hn.length, cellCount, sum_cells]
  unfold weighted
  rw [← heat_sum h w (fun k => x k - refT)]
  refine Finset.sum_congr rfl fun z hz => Finset.sum_congr rfl fun i hi => Finset.sum_congr rfl fun j hj => ?_
  rw [Finset.mem_range] at hz hi hj
  rw [← net_const h hip hn hw hz hi hj]
  rfl

theorem solves_congr {net : Network ℚ} (hg : Grounded net) {refT : ℚ} {x y : Nat → ℚ} (h : ∀ k < net.length, x k = y k) (hx : Solves net refT x) :
    Solves net refT y := by
  intro i hi
  rw [← hx i hi, mulVec_eq_entries net.length _ i _ (fun t ht => (mem_gTriplets hg.inRange ht).2),
    mulVec_eq_entries net.length _ i _ (fun t ht => (mem_gTriplets hg.inRange ht).2)]
  refine Finset.sum_congr rfl fun k hk => ?_
  rw [h k (Finset.mem_range.1 hk)]

/-- networks of layouts that differ in their components only -/
theorem same_comps {cs cs' : List (GridPower.Comp ℚ)} (h : Proper { a with comps := cs } user data) (h' : Proper { a with comps := cs' } user data)
    {ip : List (ℚ × ℚ) → ℚ → Res ℚ} (hip : Pchip ip) {minR : ℚ} (hmin : 0 < minR) {net net' : Network ℚ}
    (hn : Net dist pi part minR ip { a with comps := cs } data net) (hn' : Net dist pi part minR ip { a with comps := cs' } data net') : Same net net' := by
  have hns := ns_same h h' ⟨rfl, rfl, rfl, rfl⟩ rfl rfl rfl hmin hn hn'
  have hlen : net.length = net'.length := by simpa using congrArg List.length hns
  refine ⟨hlen, ns_of_map hns, fun k => ?_⟩
  obtain ⟨lo, hi, hb, _⟩ := bounds cs
  obtain ⟨lo', hi', hb', _⟩ := bounds cs'
  by_cases hk : k < cellCount a
  · obtain ⟨z, i, j, hz, hi, hj, rfl⟩ := cell_ex a hk
    have e1 := (net_values h hip hn hb hz hi hj).1
    have e2 := (net_values h' hip hn' hb' hz hi hj).1
    exact e1.trans e2.symm
  · have l1 : net.length = cellCount a := hn.length
    have l2 : net'.length = cellCount a := hn'.length
    rw [(beyond net (by omega)).1, (beyond net' (by omega)).1]

theorem proper_comps {cs : List (GridPower.Comp ℚ)} (h : Proper a user data) (hc : ∀ c ∈ cs, GridPower.Fits a.x a.y c) :
    Proper { a with comps := cs } user data :=
  ⟨h.units, h.user, h.data, h.strideX, h.strideY, h.size, h.layers, h.thick, h.ids, hc, h.wires, h.blocks, h.cooling, h.face⟩

/-- what less resistance does -/
theorem weighted_le (h : Proper a user data) (h' : Proper b user data) (hf : Frame a b) (hwire : Wired dist pi a b) (hcomps : a.comps = b.comps)
    (hmet : ∀ l ∈ a.layers, ∀ i < a.x.grid, ∀ j < a.y.grid, metal part a.nets a.prims l.id (tile a.x a.y i j) ≤ metal part b.nets b.prims l.id (tile a.x a.y i j))
    (hcool : ∀ z < a.layers.length, ∀ i < a.x.grid, ∀ j < a.y.grid, cool a data ⟨i, j, z⟩ ≤ cool b data ⟨i, j, z⟩)
    {w : GridPower.Comp ℚ → ℚ} (hw : Constant a.comps w) {ip : List (ℚ × ℚ) → ℚ → Res ℚ} (hip : Pchip ip) {minR : ℚ} (hmin : 0 < minR) {refT : ℚ}
    {x y : Nat → ℚ} (hx : Steady dist pi part minR ip refT a x) (hy : Steady dist pi part minR ip refT b y) :
    weighted a a.comps w refT y ≤ weighted a a.comps w refT x := by
  obtain ⟨na, hna, sa⟩ := open_steady h hip hmin hx
  obtain ⟨nb, hnb, sb⟩ := open_steady h' hip hmin hy
  have hns := ns_lower h h' hf hwire hmet hmin hna hnb
  have hlen : na.length = nb.length := by simpa using hns.length_eq
  have l1 := hna.length
  have hcell : ∀ z i j, cell b z i j = cell a z i j := by intro z i j; unfold cell; rw [hf.x, hf.y]
  have hw' : Constant b.comps w := by rw [← hcomps]; exact hw
  have hheat : ∀ z i j c, heat b w z i j c = heat a w z i j c := by intro z i j c; unfold heat; rw [hf.x, hf.y, hf.layers]
  have hb : ∀ c ∈ a.comps, ∀ e ∈ c.loss, w c ≤ e.2 ∧ e.2 ≤ w c := fun c hc e he => ⟨(hw c hc e he).ge, (hw c hc e he).le⟩
  have hb' : ∀ c ∈ b.comps, ∀ e ∈ c.loss, w c ≤ e.2 ∧ e.2 ≤ w c := fun c hc e he => ⟨(hw' c hc e he).ge, (hw' c hc e he).le⟩
  have vals : ∀ z < a.layers.length, ∀ i < a.x.grid, ∀ j < a.y.grid,
      hfOf nb (cell a z i j) = hfOf na (cell a z i j) ∧ htcOf na (cell a z i j) ≤ htcOf nb (cell a z i j) := by
    intro z hz i hi j hj
    have hz' : z < b.layers.length := by rw [← hf.layers]; exact hz
    have hi' : i < b.x.grid := by rw [← hf.x]; exact hi
    have hj' : j < b.y.grid := by rw [← hf.y]; exact hj
    have e1 := net_const h hip hna hw hz hi hj
    have e2 := net_const h' hip hnb hw' hz' hi' hj'
    have e3 := (net_values h hip hna hb hz hi hj).1
    have e4 := (net_values h' hip hnb hb' hz' hi' hj').1
    rw [hcell] at e2 e4
    refine ⟨?_, ?_⟩
    · rw [e2, e1, ← hcomps]
      simp only [hheat]
    · rw [e3, e4]
      exact hcool z hz i hi j hj
  have hbet : Better na nb := by
    refine ⟨hlen, fun i n n' hi hi' => ?_, fun k => ?_, fun k => ?_⟩
    · rw [List.forall₂_iff_get] at hns
      obtain ⟨q1, e1⟩ := List.getElem?_eq_some_iff.1 hi
      obtain ⟨q2, e2⟩ := List.getElem?_eq_some_iff.1 hi'
      have := hns.2 i (by simpa using q1) (by simpa using q2)
      simp only [List.get_eq_getElem, List.getElem_map, e1, e2] at this
      exact this
    · by_cases hk : k < cellCount a
      · obtain ⟨z, i, j, hz, hi, hj, rfl⟩ := cell_ex a hk
        exact (vals z hz i hi j hj).2
      · rw [(beyond na (by omega)).1, (beyond nb (by omega)).1]
    · by_cases hk : k < cellCount a
      · obtain ⟨z, i, j, hz, hi, hj, rfl⟩ := cell_ex a hk
        exact (vals z hz i hi j hj).1.symm
      · rw [(beyond na (by omega)).2, (beyond nb (by omega)).2]
  have := (c126_conduction hna.ground hnb.ground hbet sa sb).1
  rw [net_weighted h hip hna hw refT y, net_weighted h hip hna hw refT x] at this
  exact this

/-! ## the claim -/

/-- C134: every proper layout has steady temperatures, whatever the temperatures before. -/
theorem c134_steady (dist : Int × Int → Int × Int → ℚ) (pi : ℚ) (part : Box → S → ℚ) (h : Proper a user data) {ip : List (ℚ × ℚ) → ℚ → Res ℚ}
    (hip : Pchip ip) {minR : ℚ} (hmin : 0 < minR) (refT : ℚ) : ∃ x, Steady dist pi part minR ip refT a x := by
  obtain ⟨lo, hi, hb, _⟩ := bounds a.comps
  obtain ⟨m, h1, _, h2⟩ := c123_steady dist pi part h hip hb hmin refT
  obtain ⟨net, x, h3, h4, _⟩ := h2 (List.replicate m.total 0) (by simp)
  exact ⟨x, m, _, net, h1, h3, h4⟩

/-- C134: what the static solver returns are steady temperatures, after any positive number of rounds. -/
theorem c134_static (dist : Int × Int → Int × Int → ℚ) (pi : ℚ) (part : Box → S → ℚ) (h : Proper a user data) {ip : List (ℚ × ℚ) → ℚ → Res ℚ}
    (hip : Pchip ip) {minR : ℚ} (hmin : 0 < minR) (envT limit : ℚ) (maximum celsius : Bool) (iteration : Nat) (hit : 1 ≤ iteration)
    (solve : Network ℚ → List ℚ) (hlen : ∀ net, (solve net).length = net.length)
    (hsol : ∀ net, Grounded net → Solves net envT fun i => (solve net)[i]?.getD 0) (fuel : Nat) (hf : iteration ≤ fuel) :
    ∃ m r, extract dist pi part a = .ok m ∧
      Static.solveStatic (m.build minR ip) solve m.total envT limit maximum iteration celsius fuel = some (.ok (some r)) ∧ r.length = cellCount a ∧
      Steady dist pi part minR ip envT a fun k => r[k]?.getD 0 + if celsius then (27315 / 100 : ℚ) else 0 := by
  obtain ⟨lo, hi, hb, _⟩ := bounds a.comps
  obtain ⟨m, pm, lyr, hm1, M⟩ := made (dist := dist) (pi := pi) (part := part) h
  have hs := sound h M hip hb
  have htot : m.total = cellCount a := by
    unfold GModel.total cellCount
    rw [M.size, M.layers]
  have hbuild : ∀ T : List ℚ, T.length = m.total → ∃ net, m.build minR ip T = .ok (some net) ∧ net.length = m.total ∧ Grounded net := by
    intro T hT
    obtain ⟨net, hbd, hg, -⟩ := c62_solvable hs M.physical M.cooled hmin hT envT
    obtain ⟨b1, -⟩ := balance h M hip hb hbd hg (hsol net hg)
    exact ⟨net, hbd, by rw [b1, htot]; rfl, hg⟩
  obtain ⟨T, n, t1, t2, t3, t4, t5, -⟩ := Static.c67_static_partial (m.build minR ip) solve m.total envT limit maximum celsius iteration hit
    (fun T hT => by obtain ⟨net, n1, n2, _⟩ := hbuild T hT; exact ⟨net, n1, n2⟩) hlen fuel hf
  obtain ⟨net, r1, r2⟩ := t5 (n - 1) (by omega)
  rw [Nat.sub_add_cancel t2] at r2
  have hTlen : (T (n - 1)).length = m.total := (build_run r1).1
  obtain ⟨net', n1, n2, hg⟩ := hbuild _ hTlen
  rw [r1, Res.ok.injEq, Option.some.injEq] at n1
  subst n1
  have hlT : (T n).length = cellCount a := by rw [r2, hlen, n2, htot]
  refine ⟨m, _, hm1, t4, by split_ifs <;> simp [hlT], m, T (n - 1), net, hm1, r1, ?_⟩
  refine solves_congr hg (fun k hk => ?_) (hsol net hg)
  rw [← r2]
  have hkT : k < (T n).length := by rw [r2, hlen]; exact hk
  cases celsius
  · simp
  · simp [List.getElem?_eq_getElem hkT]

/-- stronger components heat no cell less -/
theorem stronger_hf {cs cs' : List (GridPower.Comp ℚ)} (h : Proper { a with comps := cs } user data) (h' : Proper { a with comps := cs' } user data)
    (hst : List.Forall₂ Stronger cs cs') {ip : List (ℚ × ℚ) → ℚ → Res ℚ} (hip : Pchip ip) {minR : ℚ} {net net' : Network ℚ}
    (hn : Net dist pi part minR ip { a with comps := cs } data net) (hn' : Net dist pi part minR ip { a with comps := cs' } data net') {k : Nat}
    (hk : k < cellCount a) : hfOf net k ≤ hfOf net' k := by
  obtain ⟨z, i, j, hz, hi, hj, rfl⟩ := cell_ex a hk
  obtain ⟨lo, hi1, hb, hb1⟩ := bounds cs
  obtain ⟨lo', hi', hb', hb2⟩ := bounds cs'
  have e1 : hfOf net (cell a z i j) ≤ (cs.map fun c => heat a hi1 z i j c).sum := (net_values h hip hn hb hz hi hj).2.2
  have e2 : (cs'.map fun c => heat a lo' z i j c).sum ≤ hfOf net' (cell a z i j) := (net_values h' hip hn' hb' hz hi hj).2.1
  refine e1.trans (le_trans ?_ e2)
  clear e1 e2 hb hb' h h' hn hn'
  induction hst with
  | nil => simp
  | @cons c c' t t' hc _ ih =>
    rw [List.map_cons, List.map_cons, List.sum_cons, List.sum_cons]
    refine add_le_add ?_ ih
    obtain ⟨s1, s2, s3, s4, s5⟩ := hc
    have ht : GridPower.tiles a.x a.y c' = GridPower.tiles a.x a.y c := by
      unfold GridPower.tiles
      rw [s2]
    unfold heat
    rw [ht]
    by_cases p : (c.loss ≠ [] ∧ c.box ≠ none ∧ ∃ l, a.layers[z]? = some l ∧ (l.id : Int) = c.layer) ∧ (i, j) ∈ GridPower.tiles a.x a.y c
    · rw [if_pos p]
      obtain ⟨e, he, he'⟩ := (hb1 c p.1.1).2
      by_cases q : c'.loss = []
      · rw [if_neg fun hh => hh.1.1 q, ← he']
        exact div_nonpos_of_nonpos_of_nonneg (s4 q e he) (Nat.cast_nonneg _)
      · rw [if_pos ⟨⟨q, by rw [← s2]; exact p.1.2.1, by rw [← s1]; exact p.1.2.2⟩, p.2⟩]
        obtain ⟨d, hd, hd'⟩ := (hb2 c' q).1
        rw [← he', ← hd']
        exact div_le_div_of_nonneg_right (s5 e he d hd) (Nat.cast_nonneg _)
    · rw [if_neg p]
      split_ifs with q
      · have hc0 : c.loss = [] := by
          by_contra hne
          exact p ⟨⟨hne, by rw [s2]; exact q.1.2.1, by rw [s1]; exact q.1.2.2⟩, q.2⟩
        obtain ⟨d, hd, hd'⟩ := (hb2 c' q.1.1).1
        rw [← hd']
        exact div_nonneg (s3 hc0 d hd) (Nat.cast_nonneg _)
      · exact le_rfl

/-- C134, power: with components of powers that are not less no cell of a layout is colder. -/
theorem c134_power {cs cs' : List (GridPower.Comp ℚ)} (h : Proper { a with comps := cs } user data) (h' : Proper { a with comps := cs' } user data)
    (hst : List.Forall₂ Stronger cs cs') {ip : List (ℚ × ℚ) → ℚ → Res ℚ} (hip : Pchip ip) {minR : ℚ} (hmin : 0 < minR) {refT : ℚ} {x y : Nat → ℚ}
    (hx : Steady dist pi part minR ip refT { a with comps := cs } x) (hy : Steady dist pi part minR ip refT { a with comps := cs' } y) :
    ∀ k < cellCount a, x k ≤ y k := by
  obtain ⟨net, hn, sx⟩ := open_steady h hip hmin hx
  obtain ⟨net', hn', sy⟩ := open_steady h' hip hmin hy
  have hs := same_comps h h' hip hmin hn hn'
  have l1 : net.length = cellCount a := hn.length
  rw [← l1]
  exact c126_monotone hn.ground hs (fun k hk => stronger_hf h h' hst hip hn hn' (l1 ▸ hk)) sx sy

/-- C134: steady temperatures of powers which do not depend on the temperature are the same for all temperatures before. -/
theorem c134_unique (h : Proper a user data) {w : GridPower.Comp ℚ → ℚ} (hw : Constant a.comps w) {ip : List (ℚ × ℚ) → ℚ → Res ℚ} (hip : Pchip ip)
    {minR : ℚ} (hmin : 0 < minR) {refT : ℚ} {x y : Nat → ℚ} (hx : Steady dist pi part minR ip refT a x) (hy : Steady dist pi part minR ip refT a y) :
    ∀ k < cellCount a, x k = y k := by
  have hr : List.Forall₂ Stronger a.comps a.comps := by
    rw [List.forall₂_same]
    refine fun c hc => ⟨rfl, rfl, fun h0 e he => ?_, fun h0 e he => ?_, fun e he e' he' => ?_⟩
    · rw [h0] at he; cases he
    · rw [h0] at he; cases he
    · rw [hw c hc e he, hw c hc e' he']
  intro k hk
  exact le_antisymm (c134_power (a := a) h h hr hip hmin hx hy k hk) (c134_power (a := a) h h hr hip hmin hy hx k hk)

/-- C134, superposition: the rises of the temperatures with two sets of components add. -/
theorem c134_together {cs cs' : List (GridPower.Comp ℚ)} (h : Proper { a with comps := cs ++ cs' } user data) {w : GridPower.Comp ℚ → ℚ}
    (hw : Constant (cs ++ cs') w) {ip : List (ℚ × ℚ) → ℚ → Res ℚ} (hip : Pchip ip) {minR : ℚ} (hmin : 0 < minR) {refT : ℚ} {x y z : Nat → ℚ}
    (hx : Steady dist pi part minR ip refT { a with comps := cs } x) (hy : Steady dist pi part minR ip refT { a with comps := cs' } y)
    (hz : Steady dist pi part minR ip refT { a with comps := cs ++ cs' } z) :
    ∀ k < cellCount a, z k - refT = (x k - refT) + (y k - refT) := by
  have h1 : Proper { a with comps := cs } user data := proper_comps (a := { a with comps := cs ++ cs' }) h fun c hc => h.comps c (List.mem_append_left _ hc)
  have h2 : Proper { a with comps := cs' } user data := proper_comps (a := { a with comps := cs ++ cs' }) h fun c hc => h.comps c (List.mem_append_right _ hc)
  obtain ⟨na, hna, sa⟩ := open_steady h1 hip hmin hx
  obtain ⟨nb, hnb, sb⟩ := open_steady h2 hip hmin hy
  obtain ⟨ns, hns, ss⟩ := open_steady h hip hmin hz
  have l1 : ns.length = cellCount a := hns.length
  have := c126_superposition hns.ground (same_comps h h1 hip hmin hns hna) (same_comps h h2 hip hmin hns hnb) 1 1 (fun k hk => ?_) sa sb ss
  · intro k hk
    rw [this k (by rw [l1]; exact hk), one_mul, one_mul]
  · rw [l1] at hk
    obtain ⟨l, i, j, hl, hi, hj, rfl⟩ := cell_ex a hk
    have e1 : hfOf ns (cell a l i j) = ((cs ++ cs').map fun c => heat a w l i j c).sum := net_const h hip hns hw hl hi hj
    have e2 : hfOf na (cell a l i j) = (cs.map fun c => heat a w l i j c).sum :=
      net_const h1 hip hna (fun c hc => hw c (List.mem_append_left _ hc)) hl hi hj
    have e3 : hfOf nb (cell a l i j) = (cs'.map fun c => heat a w l i j c).sum :=
      net_const h2 hip hnb (fun c hc => hw c (List.mem_append_right _ hc)) hl hi hj
    rw [e1, e2, e3, List.map_append, List.sum_append]
    ring

/-- C134: with `r` times the powers the temperatures rise `r` times as far. -/
theorem c134_scaled {cs cs' : List (GridPower.Comp ℚ)} (h : Proper { a with comps := cs } user data) (h' : Proper { a with comps := cs' } user data)
    {w : GridPower.Comp ℚ → ℚ} (hw : Constant cs w) (hw' : Constant cs' w) {r : ℚ} (hsc : List.Forall₂ (Scaled w r) cs cs')
    {ip : List (ℚ × ℚ) → ℚ → Res ℚ} (hip : Pchip ip) {minR : ℚ} (hmin : 0 < minR) {refT : ℚ} {x y : Nat → ℚ}
    (hx : Steady dist pi part minR ip refT { a with comps := cs } x) (hy : Steady dist pi part minR ip refT { a with comps := cs' } y) :
    ∀ k < cellCount a, y k - refT = r * (x k - refT) := by
  obtain ⟨na, hna, sa⟩ := open_steady h hip hmin hx
  obtain ⟨nb, hnb, sb⟩ := open_steady h' hip hmin hy
  have l1 : nb.length = cellCount a := hnb.length
  have := c126_superposition hnb.ground (same_comps h' h hip hmin hnb hna) (same_comps h' h hip hmin hnb hna) r 0 (fun k hk => ?_) sa sa sb
  · intro k hk
    rw [this k (by rw [l1]; exact hk), zero_mul, add_zero]
  · rw [l1] at hk
    obtain ⟨l, i, j, hl, hi, hj, rfl⟩ := cell_ex a hk
    have e1 : hfOf na (cell a l i j) = (cs.map fun c => heat a w l i j c).sum := net_const h hip hna hw hl hi hj
    have e2 : hfOf nb (cell a l i j) = (cs'.map fun c => heat a w l i j c).sum := net_const h' hip hnb hw' hl hi hj
    rw [e1, e2, zero_mul, add_zero]
    clear e1 e2 h h' hw hw' hna hnb hx hy
    induction hsc with
    | nil => simp
    | @cons c c' t t' hc _ ih =>
      rw [List.map_cons, List.map_cons, List.sum_cons, List.sum_cons, mul_add, ← ih]
      congr 1
      obtain ⟨s1, s2, s3, s4⟩ := hc
      have ht : GridPower.tiles a.x a.y c' = GridPower.tiles a.x a.y c := by
        unfold GridPower.tiles
        rw [s2]
      unfold heat
      have hne : c'.loss ≠ [] ↔ c.loss ≠ [] := not_congr s3.symm
      rw [ht, ← s1, ← s2, s4]
      by_cases q : (c.loss ≠ [] ∧ c.box ≠ none ∧ ∃ t, a.layers[l]? = some t ∧ (t.id : Int) = c.layer) ∧ (i, j) ∈ GridPower.tiles a.x a.y c
      · rw [if_pos q, if_pos ⟨⟨hne.2 q.1.1, q.1.2⟩, q.2⟩]
        ring
      · rw [if_neg q, if_neg fun hh => q ⟨⟨hne.1 hh.1.1, hh.1.2⟩, hh.2⟩, mul_zero]

/-- C134, reciprocity: the powers of one set of components times the rises of the temperature they see from another set give the same sum as the
powers of the other set times the rises these see from the first.  For two components: one heats the other as far per watt as the other heats
the one. -/
theorem c134_reciprocity {cs cs' : List (GridPower.Comp ℚ)} (h : Proper { a with comps := cs } user data) (h' : Proper { a with comps := cs' } user data)
    {w : GridPower.Comp ℚ → ℚ} (hw : Constant cs w) (hw' : Constant cs' w) {ip : List (ℚ × ℚ) → ℚ → Res ℚ} (hip : Pchip ip) {minR : ℚ}
    (hmin : 0 < minR) {refT : ℚ} {x y : Nat → ℚ} (hx : Steady dist pi part minR ip refT { a with comps := cs } x)
    (hy : Steady dist pi part minR ip refT { a with comps := cs' } y) :
    weighted a cs w refT y = weighted a cs' w refT x ∧
    ∀ c c', cs = [c] → cs' = [c'] → Heats a c → Heats a c' → w c = 1 → w c' = 1 →
      (mean a c fun k => y k - refT) = mean a c' fun k => x k - refT := by
  obtain ⟨na, hna, sa⟩ := open_steady h hip hmin hx
  obtain ⟨nb, hnb, sb⟩ := open_steady h' hip hmin hy
  have hs := same_comps h h' hip hmin hna hnb
  have hr := (c126_reciprocity hna.ground hs sa sb).1
  have e1 : _ = weighted a cs w refT y := net_weighted h hip hna hw refT y
  have e2 : _ = weighted a cs' w refT x := net_weighted h' hip hnb hw' refT x
  rw [← hs.length, ← hr] at e2
  have e3 : weighted a cs w refT y = weighted a cs' w refT x := e1.symm.trans e2
  refine ⟨e3, ?_⟩
  rintro c c' rfl rfl hc hc' h1 h2
  unfold weighted at e3
  simp only [List.map_cons, List.map_nil, List.sum_cons, List.sum_nil, add_zero, if_pos hc, if_pos hc', h1, h2, one_mul] at e3
  exact e3

/-- C134, cooling: if every cell of a layout gives off no less per kelvin and no power is negative, no cell is warmer. -/
theorem c134_cooling (h : Proper a user data) (h' : Proper b user data) (hf : Frame a b) (hwires : a.wires = b.wires) (hnets : a.nets = b.nets) (hprims : a.prims = b.prims)
    (hcomps : a.comps = b.comps) (hcool : ∀ z < a.layers.length, ∀ i < a.x.grid, ∀ j < a.y.grid, cool a data ⟨i, j, z⟩ ≤ cool b data ⟨i, j, z⟩)
    {w : GridPower.Comp ℚ → ℚ} (hw : Constant a.comps w) (hpos : ∀ c ∈ a.comps, 0 ≤ w c) {ip : List (ℚ × ℚ) → ℚ → Res ℚ} (hip : Pchip ip)
    {minR : ℚ} (hmin : 0 < minR) {refT : ℚ} {x y : Nat → ℚ} (hx : Steady dist pi part minR ip refT a x) (hy : Steady dist pi part minR ip refT b y) :
    ∀ k < cellCount a, y k ≤ x k := by
  obtain ⟨na, hna, sa⟩ := open_steady h hip hmin hx
  obtain ⟨nb, hnb, sb⟩ := open_steady h' hip hmin hy
  have hns := ns_same h h' hf hwires hnets hprims hmin hna hnb
  have hlen : na.length = nb.length := by simpa using congrArg List.length hns
  have l1 := hna.length
  have hcell : ∀ z i j, cell b z i j = cell a z i j := by intro z i j; unfold cell; rw [hf.x, hf.y]
  have hw' : Constant b.comps w := by rw [← hcomps]; exact hw
  have hheat : ∀ z i j c, heat b w z i j c = heat a w z i j c := by intro z i j c; unfold heat; rw [hf.x, hf.y, hf.layers]
  have hb : ∀ c ∈ a.comps, ∀ e ∈ c.loss, w c ≤ e.2 ∧ e.2 ≤ w c := fun c hc e he => ⟨(hw c hc e he).ge, (hw c hc e he).le⟩
  have hb' : ∀ c ∈ b.comps, ∀ e ∈ c.loss, w c ≤ e.2 ∧ e.2 ≤ w c := fun c hc e he => ⟨(hw' c hc e he).ge, (hw' c hc e he).le⟩
  have vals : ∀ z < a.layers.length, ∀ i < a.x.grid, ∀ j < a.y.grid, hfOf na (cell a z i j) = (a.comps.map fun c => heat a w z i j c).sum ∧
      hfOf nb (cell a z i j) = hfOf na (cell a z i j) ∧ htcOf na (cell a z i j) ≤ htcOf nb (cell a z i j) := by
    intro z hz i hi j hj
    have hz' : z < b.layers.length := by rw [← hf.layers]; exact hz
    have hi' : i < b.x.grid := by rw [← hf.x]; exact hi
    have hj' : j < b.y.grid := by rw [← hf.y]; exact hj
    have e1 := net_const h hip hna hw hz hi hj
    have e2 := net_const h' hip hnb hw' hz' hi' hj'
    have e3 := (net_values h hip hna hb hz hi hj).1
    have e4 := (net_values h' hip hnb hb' hz' hi' hj').1
    rw [hcell] at e2 e4
    refine ⟨e1, ?_, ?_⟩
    · rw [e2, e1, ← hcomps]
      simp only [hheat]
    · rw [e3, e4]
      exact hcool z hz i hi j hj
  rw [← l1]
  refine c126_cooling hna.ground ⟨hlen, ns_of_map hns, fun k => ?_, fun k => ?_⟩ (fun n hn => ?_) sa sb
  · by_cases hk : k < cellCount a
    · obtain ⟨z, i, j, hz, hi, hj, rfl⟩ := cell_ex a hk
      exact (vals z hz i hi j hj).2.2
    · rw [(beyond na (by omega)).1, (beyond nb (by omega)).1]
  · by_cases hk : k < cellCount a
    · obtain ⟨z, i, j, hz, hi, hj, rfl⟩ := cell_ex a hk
      exact (vals z hz i hi j hj).2.1.symm
    · rw [(beyond na (by omega)).2, (beyond nb (by omega)).2]
  · obtain ⟨k, hk⟩ := List.getElem?_of_mem hn
    have hkl := (List.getElem?_eq_some_iff.1 hk).1
    obtain ⟨z, i, j, hz, hi, hj, rfl⟩ := cell_ex a (by omega : k < cellCount a)
    have e : hfOf na (cell a z i j) = n.hf := by unfold hfOf; rw [hk]
    rw [← e, (vals z hz i hi j hj).1]
    apply List.sum_nonneg
    intro v hv
    rw [List.mem_map] at hv
    obtain ⟨c, hc, rfl⟩ := hv
    unfold heat
    split_ifs
    · exact div_nonneg (hpos c hc) (Nat.cast_nonneg _)
    · exact le_rfl

/-- C134, metal: if no tile of a layout has less metal and no cell gives off less per kelvin, the rises of the temperature the components see, weighted
with their powers, do not add up to more. -/
theorem c134_metal (h : Proper a user data) (h' : Proper b user data) (hf : Frame a b) (hwires : a.wires = b.wires) (hcomps : a.comps = b.comps)
    (hmet : ∀ l ∈ a.layers, ∀ i < a.x.grid, ∀ j < a.y.grid, metal part a.nets a.prims l.id (tile a.x a.y i j) ≤ metal part b.nets b.prims l.id (tile a.x a.y i j))
    (hcool : ∀ z < a.layers.length, ∀ i < a.x.grid, ∀ j < a.y.grid, cool a data ⟨i, j, z⟩ ≤ cool b data ⟨i, j, z⟩)
    {w : GridPower.Comp ℚ → ℚ} (hw : Constant a.comps w) {ip : List (ℚ × ℚ) → ℚ → Res ℚ} (hip : Pchip ip) {minR : ℚ} (hmin : 0 < minR) {refT : ℚ}
    {x y : Nat → ℚ} (hx : Steady dist pi part minR ip refT a x) (hy : Steady dist pi part minR ip refT b y) :
    weighted a a.comps w refT y ≤ weighted a a.comps w refT x :=
  weighted_le h h' hf (wired_eq hf hwires) hcomps hmet hcool hw hip hmin hx hy

/-- C134, bond wires, is false: a layout with **thinner** bond wires does not heat its components more, as what the network takes for the resistance of
a wire grows with its cross section. -/
theorem c134_wires_refuted (h : Proper a user data) (wires : List Wire) (hw : List.Forall₂ Thinner a.wires wires) (hpi : 0 ≤ pi) (hd : ∀ p q, 0 ≤ dist p q)
    {w : GridPower.Comp ℚ → ℚ} (hc : Constant a.comps w) {ip : List (ℚ × ℚ) → ℚ → Res ℚ} (hip : Pchip ip) {minR : ℚ} (hmin : 0 < minR) {refT : ℚ}
    {x y : Nat → ℚ} (hx : Steady dist pi part minR ip refT a x) (hy : Steady dist pi part minR ip refT { a with wires := wires } y) :
    weighted a a.comps w refT y ≤ weighted a a.comps w refT x := by
  have h' : Proper { a with wires := wires } user data := by
    refine ⟨h.units, h.user, h.data, h.strideX, h.strideY, h.size, h.layers, h.thick, h.ids, h.comps, ?_, h.blocks, h.cooling, h.face⟩
    intro v hv
    have hwi := h.wires
    dsimp only at hv
    obtain ⟨k, hk⟩ := List.getElem?_of_mem hv
    obtain ⟨q, e⟩ := List.getElem?_eq_some_iff.1 hk
    rw [List.forall₂_iff_get] at hw
    have q' : k < a.wires.length := by rw [hw.1]; exact q
    have := hw.2 k q' q
    simp only [List.get_eq_getElem, e] at this
    obtain ⟨s1, s2, _⟩ := this
    rw [← s1, ← s2]
    exact hwi _ (List.getElem_mem q')
  have hf : Frame a { a with wires := wires } := ⟨rfl, rfl, rfl, rfl⟩
  exact weighted_le h h' hf (wired_thin h hf hw hpi hd) rfl (fun _ _ _ _ _ _ => le_rfl) (fun _ _ _ _ _ _ => le_rfl) hc hip hmin hx hy

end

/-! ## examples -/

/-- the layout of the example of C123 -/
abbrev exL (bot : ℚ) : In Box := GridExt.exIn ((0, 0), (1 / 2, 1 / 2)) 300 (some bot)

/-- its component, with some power -/
def exC (p : ℚ) : GridPower.Comp ℚ := ⟨[(300, p)], 9, some ((100, 200), (900, 700))⟩

/-- another one, on the other layer and over other tiles -/
def exD (p : ℚ) : GridPower.Comp ℚ := ⟨[(300, p), (400, p)], 7, some ((1100, 300), (1900, 1900))⟩

/-- the power of the last sample -/
def exW (c : GridPower.Comp ℚ) : ℚ := (c.loss.map Prod.snd).getLastD 0

theorem exProper' (bot : ℚ) (hb : 0 < bot) (p q : ℚ) : Proper { exL bot with comps := [exC p, exD q] } (1 / 1000000) (1 / 1000000000) := by
  have h := exProper
  refine ⟨rfl, by norm_num, by norm_num, h.strideX, h.strideY, h.size, h.layers, h.thick, h.ids, ?_, h.wires, h.blocks, ?_, .inr (by simp [exL, GridExt.exIn])⟩
  · intro c hc b hb
    simp only [List.mem_cons, List.not_mem_nil, or_false] at hc
    rcases hc with rfl | rfl <;>
      · simp only [exC, exD, Option.some.injEq] at hb
        subst hb
        change GridPower.Within (exL 5).x (exL 5).y _
        unfold GridPower.Within
        decide +kernel
  · intro b hbm v hv
    simp only [exL, GridExt.exIn, List.append_nil, List.map_cons, List.map_nil, List.mem_cons, List.not_mem_nil, or_false] at hbm
    rcases hbm with rfl | rfl | rfl | rfl
    · simp at hv
    · simp only [Option.some.injEq] at hv; subst hv; exact ⟨rfl, hb⟩
    · simp only [Option.some.injEq] at hv; subst hv; exact ⟨rfl, by norm_num⟩
    · simp at hv

/-- hypotheses of `c134_power`, `c134_together`, `c134_scaled` and `c134_reciprocity`: layouts with the components at various powers -/
example : (∀ p q, Constant [exC p, exD q] exW) ∧ List.Forall₂ Stronger [exC 8, exD 1] [exC 9, exD 1] ∧
    List.Forall₂ (Scaled exW 3) [exC 8, exD 1] [exC 24, exD 3] ∧ Heats (exL 5) (exC 1) ∧ Heats (exL 5) (exD 1) ∧ exW (exC 1) = 1 ∧ exW (exD 1) = 1 := by
  refine ⟨?_, ?_, ?_, ⟨by simp [exC], by simp [exC], ⟨9, "D1", 5, false⟩, by simp [exL, GridExt.exIn], rfl⟩,
    ⟨by simp [exD], by simp [exD], ⟨7, "M1", 3, true⟩, by simp [exL, GridExt.exIn], rfl⟩, rfl, rfl⟩
  · intro p q c hc e he
    simp only [List.mem_cons, List.not_mem_nil, or_false] at hc
    rcases hc with rfl | rfl
    · simp only [exC, List.mem_cons, List.not_mem_nil, or_false] at he
      subst he
      rfl
    · simp only [exD, List.mem_cons, List.not_mem_nil, or_false] at he
      rcases he with rfl | rfl <;> rfl
  · refine .cons ⟨rfl, rfl, by simp [exC], by simp [exC], ?_⟩ (.cons ⟨rfl, rfl, by simp [exD], by simp [exD], ?_⟩ .nil)
    · simp [exC]; norm_num
    · simp [exD]
  · refine .cons ⟨rfl, rfl, by simp [exC], ?_⟩ (.cons ⟨rfl, rfl, by simp [exD], ?_⟩ .nil)
    · simp [exC, exW]; norm_num
    · simp [exD, exW]

/-- hypotheses of `c134_cooling`: the bottom cooled with 7 instead of 5 -/
example : ∀ z < (exL 5).layers.length, ∀ i < (exL 5).x.grid, ∀ j < (exL 5).y.grid,
    cool (exL 5) (1 / 1000000000) ⟨i, j, z⟩ ≤ cool (exL 7) (1 / 1000000000) ⟨i, j, z⟩ := by
  intro z hz i _ j _
  have hz' : z < 2 := hz
  interval_cases z
  · exact le_of_eq rfl
  · have hc : ∀ bot : ℚ, conditions (exL bot) 2 ⟨i, j, 1⟩ = [⟨.htc, some bot⟩] := by
      intro bot
      simp [conditions, exL, GridExt.exIn]
    have hl : ∀ bot : ℚ, (exL bot).layers.length = 2 := fun _ => rfl
    unfold cool
    rw [hl, hl, hc, hc]
    simp only [List.getLast?_singleton, Option.getD_some]
    have e : (exL 7).x = (exL 5).x ∧ (exL 7).y = (exL 5).y := ⟨rfl, rfl⟩
    rw [e.1, e.2]
    refine mul_le_mul_of_nonneg_left (by norm_num) ?_
    have h1 : (0 : ℚ) < (exL 5).x.stride := by decide +kernel
    have h2 : (0 : ℚ) < (exL 5).y.stride := by decide +kernel
    positivity

/-- hypotheses of `c134_metal`: the metal without its hole -/
example : ∀ l ∈ (exL 5).layers, ∀ i < (exL 5).x.grid, ∀ j < (exL 5).y.grid,
    metal boxPart (exL 5).nets (exL 5).prims l.id (tile (exL 5).x (exL 5).y i j) ≤
      metal boxPart (exL 5).nets [⟨some 7, 1, some (⟨1000, 0, 2000, 1000⟩, [])⟩] l.id (tile (exL 5).x (exL 5).y i j) := by
  decide +kernel

/-- hypotheses of `c134_wires_refuted`: a wire of half the radius -/
example : List.Forall₂ Thinner (exL 5).wires [⟨(300, 200), (1200, 1700), 1 / 4⟩] :=
  .cons ⟨rfl, rfl, by norm_num, by norm_num⟩ .nil

end Ecad.LayoutResponse
