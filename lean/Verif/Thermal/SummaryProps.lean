import Verif.Thermal.SummaryModel
import Verif.Thermal.GridNetProps
import Verif.Thermal.PrismNetProps
import Mathlib.Data.Finset.Card
import Mathlib.Tactic.LinearCombination
import Mathlib.Algebra.BigOperators.Group.List.Basic
/-!
The summary of a network build against the network that was built (C146).
-/
namespace Ecad.Summary

open Ecad.Thermal Ecad.GridT Ecad.PrismT

variable {K : Type} [Field K] [LinearOrder K]

/-! ### specification -/

/-- the heat flow that the call `o` throws away when it is made on `net`: `SetHF` forgets the flow the node had -/
def thrown (net : Network K) : Op K → K
  | .hf i _ => hfOf net i
  | _ => 0

/-- all heat flow thrown away by the calls `l`, made one after the other from `net` on -/
def replaced (minR : K) : Network K → List (Res (Op K)) → K
  | net, .ok o :: l =>
    thrown net o + match o.exec minR net with
      | .ok net' => replaced minR net' l
      | _ => 0
  | _, _ => 0

/-- the heat flow named by a call -/
def flow : Res (Op K) → K
  | .ok (.hf _ v) => v
  | .ok (.addHF _ v) => v
  | _ => 0

/-- the node whose heat flow a call changes -/
def flowAt : Res (Op K) → Option Nat
  | .ok (.hf i _) => some i
  | .ok (.addHF i _) => some i
  | _ => none

/-- the node whose heat flow a call sets -/
def setAt : Res (Op K) → Option Nat
  | .ok (.hf i _) => some i
  | _ => none

/-- the node whose transfer coefficient a call sets -/
def coolAt : Res (Op K) → Option Nat
  | .ok (.htc i _) => some i
  | _ => none

/-- no flow is set on a node that was given one before -/
def Once (l : List (Res (Op K))) : Prop := l.Pairwise fun a b => ∀ i, setAt b = some i → flowAt a ≠ some i

/-- the nodes that give heat to the surroundings -/
def cooled (net : Network K) : Finset Nat := (Finset.range net.length).filter fun i => htcOf net i ≠ 0

/-! ### calls -/

theorem sum_modify (f : Node K → Node K) : ∀ (net : Network K) (i : Nat) (n : Node K), net[i]? = some n →
    totalHF (net.modify i f) = totalHF net - n.hf + (f n).hf := by
  intro net
  induction net with
  | nil => intro i n h; simp at h
  | cons a l ih =>
    intro i n h
    cases i with
    | zero =>
      simp only [List.getElem?_cons_zero, Option.some.injEq] at h; subst h
      simp [totalHF]; ring
    | succ i =>
      simp only [List.getElem?_cons_succ] at h
      have := ih i n h
      simp only [totalHF] at this ⊢
      rw [List.modify_succ_cons, List.map_cons, List.sum_cons, this, List.map_cons, List.sum_cons]; ring

/-- one call changes the total by what it names less what it throws away -/
theorem exec_total {minR : K} {net net' : Network K} {o : Op K} (h : o.exec minR net = .ok net') :
    totalHF net' + thrown net o = totalHF net + flow (.ok o) := by
  cases o <;> simp only [Op.exec, setC, setHF, Thermal.addHF, setHTC, Thermal.addHTC, setR_eq, thrown, flow] at h ⊢
  case append =>
    simp only [appendNode, Res.ok.injEq] at h; subst h
    simp [totalHF, Node.default]
  all_goals
    rw [upd_ok] at h
    obtain ⟨hlt, rfl⟩ := h
    rw [sum_modify _ _ _ _ (List.getElem?_eq_getElem hlt)]
    try simp only [hfOf, List.getElem?_eq_getElem hlt, Option.map_some, Option.getD_some]
    try ring

theorem run_total {minR : K} (l : List (Res (Op K))) : ∀ {net net' : Network K}, run minR net l = .ok net' →
    totalHF net' + replaced minR net l = totalHF net + (l.map flow).sum := by
  induction l with
  | nil => intro net net' h; simp [run] at h; simp [h, replaced]
  | cons o l ih =>
    intro net net' h
    rcases o with op | _ | _
    · rw [run] at h
      cases h1 : op.exec minR net with
      | ub => rw [h1] at h; simp at h
      | exn => rw [h1] at h; simp at h
      | ok n1 =>
        rw [h1, Res.bind_ok] at h
        have h2 := ih h
        have h3 := exec_total h1
        simp only [replaced, h1, List.map_cons, List.sum_cons]
        linear_combination h2 + h3
    · simp [run] at h
    · simp [run] at h

theorem total_new (n : Nat) : totalHF (Network.new noScen n : Network K) = 0 := by
  simp [totalHF, Network.new, Node.default]

theorem tally_flow (w : Bool) (s : Summary K) (o : Res (Op K)) :
    (tally w s o).intake + (tally w s o).outtake = s.intake + s.outtake + flow o := by
  rcases o with op | _ | _
  · cases op <;> simp only [tally, flow, add_zero]
    case hf i v => unfold Summary.signed; split_ifs <;> simp only <;> ring
    case addHF i v => split_ifs <;> simp only <;> ring
  · simp [tally, flow]
  · simp [tally, flow]

theorem tally_fold (w : Bool) (l : List (Res (Op K))) : ∀ s : Summary K,
    (l.foldl (tally w) s).intake + (l.foldl (tally w) s).outtake = s.intake + s.outtake + (l.map flow).sum := by
  induction l with
  | nil => intro s; simp
  | cons o l ih => intro s; rw [List.foldl_cons, ih, tally_flow, List.map_cons, List.sum_cons]; ring

theorem tally_total (w : Bool) (l : List (Res (Op K))) : ∀ s : Summary K, (l.foldl (tally w) s).total = s.total := by
  induction l with
  | nil => intro s; simp
  | cons o l ih =>
    intro s; rw [List.foldl_cons, ih]
    rcases o with op | _ | _
    · cases op <;> simp only [tally, Summary.signed] <;> split_ifs <;> rfl
    · rfl
    · rfl

theorem tally_boundary (w : Bool) (l : List (Res (Op K))) : ∀ s : Summary K,
    (l.foldl (tally w) s).boundary = s.boundary + (l.filterMap coolAt).length := by
  induction l with
  | nil => intro s; simp
  | cons o l ih =>
    intro s; rw [List.foldl_cons, ih]
    rcases o with op | _ | _
    · cases op <;> simp only [tally, Summary.signed, coolAt, List.filterMap_cons, List.length_cons] <;> (try split_ifs) <;>
        (try omega) <;> rfl
    · rfl
    · rfl

/-- what is not counted as joule heat -/
theorem tally_joule_false (l : List (Res (Op K))) : ∀ s : Summary K, (l.foldl (tally false) s).joule = s.joule := by
  induction l with
  | nil => intro s; simp
  | cons o l ih =>
    intro s; rw [List.foldl_cons, ih]
    rcases o with op | _ | _
    · cases op <;> simp only [tally, Summary.signed] <;> split_ifs <;> first | rfl | simp_all
    · rfl
    · rfl

/-- the flow that calls add -/
def added : Res (Op K) → K
  | .ok (.addHF _ v) => v
  | _ => 0

theorem tally_joule_true (l : List (Res (Op K))) : ∀ s : Summary K,
    (l.foldl (tally true) s).joule = s.joule + (l.map added).sum := by
  induction l with
  | nil => intro s; simp
  | cons o l ih =>
    intro s; rw [List.foldl_cons, ih]
    rcases o with op | _ | _
    · cases op <;> simp only [tally, Summary.signed, added, List.map_cons, List.sum_cons, if_true] <;> (try split_ifs) <;>
        (try simp only) <;> ring
    · simp [tally, added]
    · simp [tally, added]

theorem tally_out (w : Bool) (l : List (Res (Op K))) : ∀ s : Summary K, s.outtake ≤ 0 →
    [IsStrictOrderedRing K] → (l.foldl (tally w) s).outtake ≤ 0 := by
  induction l with
  | nil => intro s hs _; simpa using hs
  | cons o l ih =>
    intro s hs _
    rw [List.foldl_cons]
    refine ih _ ?_
    rcases o with op | _ | _
    · cases op <;> simp only [tally, Summary.signed] <;> (try split_ifs with h) <;> (try exact hs)
      show s.outtake + _ ≤ 0
      linarith [not_lt.1 h]
    · exact hs
    · exact hs

theorem tally_in (w : Bool) (l : List (Res (Op K))) (hl : ∀ o ∈ l, 0 ≤ added o) : ∀ s : Summary K, 0 ≤ s.intake →
    [IsStrictOrderedRing K] → 0 ≤ (l.foldl (tally w) s).intake := by
  induction l with
  | nil => intro s hs _; simpa using hs
  | cons o l ih =>
    intro s hs _
    rw [List.foldl_cons]
    refine ih (fun o ho => hl o (by simp [ho])) _ ?_
    have h1 := hl o (by simp)
    rcases o with op | _ | _
    · cases op <;> simp only [tally, Summary.signed, added] at h1 ⊢ <;> (try split_ifs with h) <;>
        (try exact hs) <;> show 0 ≤ s.intake + _ <;> linarith
    · exact hs
    · exact hs

/-- without set flows nothing is counted as given off -/
theorem tally_noset (w : Bool) (l : List (Res (Op K))) (hl : ∀ o ∈ l, setAt o = none) : ∀ s : Summary K,
    (l.foldl (tally w) s).outtake = s.outtake := by
  induction l with
  | nil => intro s; simp
  | cons o l ih =>
    intro s
    rw [List.foldl_cons, ih (fun o ho => hl o (by simp [ho]))]
    have h1 := hl o (by simp)
    rcases o with op | _ | _
    · cases op <;> simp only [tally, setAt] at h1 ⊢ <;> (try split_ifs) <;> first | rfl | simp at h1
    · rfl
    · rfl

/-! ### nothing thrown away -/

theorem replaced_zero {minR : K} (l : List (Res (Op K))) : ∀ {net net' : Network K}, run minR net l = .ok net' → Once l →
    (∀ o ∈ l, ∀ i, setAt o = some i → hfOf net i = 0) → replaced minR net l = 0 := by
  induction l with
  | nil => intro net net' _ _ _; rfl
  | cons o l ih =>
    intro net net' h ho hz
    rcases o with op | _ | _
    · rw [run] at h
      cases h1 : op.exec minR net with
      | ub => rw [h1] at h; simp at h
      | exn => rw [h1] at h; simp at h
      | ok n1 =>
        rw [h1, Res.bind_ok] at h
        obtain ⟨ho1, ho2⟩ := List.pairwise_cons.1 ho
        have h2 : thrown net op = 0 := by
          cases op <;> simp only [thrown]
          case hf i v => exact hz _ (List.mem_cons_self ..) i rfl
        simp only [replaced, h1, h2, zero_add]
        refine ih h ho2 ?_
        intro o' ho' i hi
        rw [exec_hf i net n1 op h1]
        have h3 := hz o' (by simp [ho']) i hi
        have h4 := ho1 o' ho' i hi
        cases op <;> simp only [Op.hfAt, h3] <;> simp only [flowAt, ne_eq, Option.some.injEq] at h4 <;> rw [if_neg h4]
    · simp [run] at h
    · simp [run] at h

theorem once_of_noset {l : List (Res (Op K))} (hl : ∀ o ∈ l, setAt o = none) : Once l := by
  unfold Once
  rw [List.pairwise_iff_forall_sublist]
  intro a b hab i hi
  have := hl b (hab.subset (by simp))
  rw [this] at hi; simp at hi

/-! ### cooled nodes -/

theorem run_cooled {minR : K} {l : List (Res (Op K))} {n : Nat} {net : Network K} (h : run minR (Network.new noScen n) l = .ok net)
    (ha : ∀ o ∈ l, NoAdd o ∨ ∃ i v, o = .ok (.addHF i v)) {i : Nat} (hi : htcOf net i ≠ 0) : i ∈ l.filterMap coolAt := by
  rw [(run_values h).2.1 i, htcOf_new] at hi
  by_contra hn
  apply hi
  clear hi h
  induction l with
  | nil => rfl
  | cons o l ih =>
    rw [List.foldl_cons]
    have h1 := ha o (by simp)
    have h2 : Op.htcAt i o (0 : K) = 0 := by
      rcases o with op | _ | _
      · cases op <;> simp only [Op.htcAt]
        case htc j v =>
          rw [if_neg]; rintro rfl; exact hn (by simp [coolAt])
        case addHTC j v => rcases h1 with h1 | ⟨_, _, h1⟩ <;> simp [NoAdd] at h1
      · rfl
      · rfl
    rw [h2]
    refine ih (fun o ho => ha o (by simp [ho])) ?_
    intro hm; apply hn
    rw [List.filterMap_cons]; split
    · exact hm
    · exact List.mem_cons_of_mem _ hm

/-! ### C146: heat flows -/

theorem prism_flow (m : PModel K) (iniT : List K) :
    (prismSummary m iniT).intake + (prismSummary m iniT).outtake = ((m.ops iniT).map flow).sum := by
  unfold prismSummary PModel.ops
  rw [tally_fold, tally_fold, tally_fold]
  simp [fresh, List.map_append, List.sum_append, add_assoc]

theorem stack_flow (m : SModel K) (iniT : List K) :
    (stackSummary m iniT).intake + (stackSummary m iniT).outtake = ((m.ops iniT).map flow).sum := by
  unfold stackSummary SModel.ops
  rw [tally_fold, tally_fold, tally_fold]
  simp [fresh, List.map_append, List.sum_append, add_assoc]

theorem stack_run {minR : K} {m : SModel K} {iniT : List K} {net : Network K} (h : m.build minR iniT = .ok (some net)) :
    iniT.length = m.total ∧ run minR (Network.new noScen m.total) (m.ops iniT) = .ok net := by
  unfold SModel.build at h
  split_ifs at h with hl
  · simp at h
  · refine ⟨not_not.1 hl, ?_⟩
    cases hr : run minR (Network.new noScen m.total) (m.ops iniT) with
    | ok n => rw [hr] at h; simpa using h
    | ub => rw [hr] at h; simp at h
    | exn => rw [hr] at h; simp at h

/-- **C146, grid models.** Intake and outtake of the summary together are the heat flow of the network and what was thrown away. -/
theorem c146_grid_heat {minR : K} {ip : List (K × K) → K → Res K} {m : GModel K} {iniT : List K} {net : Network K}
    (h : m.build minR ip iniT = .ok (some net)) :
    (gridSummary ip m iniT).intake + (gridSummary ip m iniT).outtake =
      totalHF net + replaced minR (Network.new noScen m.total) (m.ops ip iniT) := by
  rw [run_total _ (GridT.build_run h).2, total_new, gridSummary, tally_fold]
  simp [fresh]

/-- **C146, prism models.** Intake and outtake of the summary together are the heat flow of the network and what was thrown away. -/
theorem c146_prism_heat {minR : K} {m : PModel K} {iniT : List K} {net : Network K} (h : m.build minR iniT = .ok (some net)) :
    (prismSummary m iniT).intake + (prismSummary m iniT).outtake =
      totalHF net + replaced minR (Network.new noScen m.total) (m.ops iniT) := by
  rw [run_total _ (PrismT.build_run h).2, total_new, prism_flow, zero_add]

/-- **C146, stackup prism models.** The same. -/
theorem c146_stack_heat {minR : K} {m : SModel K} {iniT : List K} {net : Network K} (h : m.build minR iniT = .ok (some net)) :
    (stackSummary m iniT).intake + (stackSummary m iniT).outtake =
      totalHF net + replaced minR (Network.new noScen m.total) (m.ops iniT) := by
  rw [run_total _ (stack_run h).2, total_new, stack_flow, zero_add]

/-! ### C146: models without fluxes -/

/-- no heat flux among the boundary conditions -/
def NoFluxP (m : PModel K) : Prop :=
  (∀ b ∈ m.topBC, b.type ≠ .heatFlux) ∧ (∀ b ∈ m.botBC, b.type ≠ .heatFlux) ∧
  (∀ b ∈ m.topBlocks, b.1.type ≠ .heatFlux) ∧ ∀ b ∈ m.botBlocks, b.1.type ≠ .heatFlux

/-- no heat flux among the boundary conditions -/
def NoFluxS (m : SModel K) : Prop :=
  (∀ b ∈ m.topBC, b.type ≠ .heatFlux) ∧ (∀ b ∈ m.botBC, b.type ≠ .heatFlux) ∧
  (∀ b ∈ m.topBlocks, b.1.type ≠ .heatFlux) ∧ ∀ b ∈ m.botBlocks, b.1.type ≠ .heatFlux

/-- the heat that the wires are to give: each its joule heat at the temperature given for it -/
def wireHeat (m : PModel K) (iniT : List K) : K :=
  (m.lines.map fun l => max 0 (m.joule l (iniT.getD l.id 0))).sum

theorem lineOps_added [IsStrictOrderedRing K] {m : PModel K} {iniT : List K} {l : Line K} (h : l.id < iniT.length) :
    ((m.lineOps iniT l).map added).sum = max 0 (m.joule l (iniT.getD l.id 0)) := by
  have hR : ∀ (t : K) (nbs : List Nat), ((nbs.flatMap (m.lineR l t)).map added).sum = 0 := by
    intro t nbs
    apply List.sum_eq_zero
    intro x hx
    rw [List.mem_map] at hx
    obtain ⟨o, ho, rfl⟩ := hx
    rw [List.mem_flatMap] at ho
    obtain ⟨nb, _, ho⟩ := ho
    unfold PModel.lineR at ho
    split_ifs at ho
    · simp at ho; subst ho; rfl
    · split at ho <;> (simp at ho; subst ho; rfl)
    · simp at ho
  unfold PModel.lineOps
  rw [List.getElem?_eq_getElem h]
  simp only [List.map_append, List.sum_append, hR, add_zero]
  have e : iniT.getD l.id 0 = iniT[l.id] := by simp [h]
  rw [e]
  split_ifs with hj
  · simp [added, max_eq_right hj.le]
  · simp [added, max_eq_left (not_lt.1 hj)]

theorem lineOps_set {m : PModel K} {iniT : List K} {l : Line K} {o : Res (Op K)} (h : o ∈ m.lineOps iniT l) : setAt o = none := by
  have hR : ∀ (t : K) (nb : Nat), o ∈ m.lineR l t nb → setAt o = none := by
    intro t nb ho
    unfold PModel.lineR at ho
    split_ifs at ho
    · simp at ho; subst ho; rfl
    · split at ho <;> (simp at ho; subst ho; rfl)
    · simp at ho
  unfold PModel.lineOps at h
  split at h
  · simp at h; subst h; rfl
  · simp only [List.mem_append, List.mem_flatMap] at h
    rcases h with ((h | h) | h) | h
    · simp at h; rcases h with rfl | rfl <;> rfl
    · split_ifs at h
      · simp at h; subst h; rfl
      · simp at h
    · obtain ⟨nb, _, h⟩ := h; exact hR _ _ h
    · obtain ⟨nb, _, h⟩ := h; exact hR _ _ h

theorem link_set {m : PModel K} {iniT : List K} {i : Nat} {n : Option Nat} {r : Prism K → K → K} {o : Res (Op K)}
    (h : o ∈ m.link iniT i n r) : setAt o = none := by
  rcases mem_link h with rfl | ⟨n', q, t, _, hi, _, _, rfl⟩ <;> rfl

theorem powerOps_set {i : Nat} {p : Prism K} {t : K} {o : Res (Op K)} (h : o ∈ powerOps i p t) : setAt o = none := by
  unfold powerOps at h
  split at h
  · simp at h; rcases h with rfl | rfl <;> rfl
  · simp at h

theorem prism_noset {m : PModel K} (hf : NoFluxP m) (iniT : List K) {o : Res (Op K)} (h : o ∈ m.ops iniT) : setAt o = none := by
  obtain ⟨h1, h2, h3, h4⟩ := hf
  have hbc : ∀ {bc : Option (BC K)} {i : Nat} {p : Prism K} {n : Option Nat}, (∀ b ∈ bc, b.type ≠ .heatFlux) → o ∈ m.bcOps bc i p n →
      setAt o = none := by
    intro bc i p n hb ho
    unfold PModel.bcOps at ho
    split at ho
    · simp at ho; subst ho; rfl
    · exact absurd rfl (hb _ rfl)
    · simp at ho
  have hbl : ∀ {side : Elem K → Option Nat} {b : BC K × (Nat → Bool)}, b.1.type ≠ .heatFlux → o ∈ m.blockOps side b → setAt o = none := by
    intro side b hb ho
    unfold PModel.blockOps at ho
    split at ho
    · simp at ho
    · rw [List.mem_filterMap] at ho
      obtain ⟨p, _, ho⟩ := ho
      split_ifs at ho
      cases hty : b.1.type with
      | heatFlux => exact absurd hty hb
      | htc => rw [hty] at ho; simp at ho; subst ho; rfl
  unfold PModel.ops at h
  simp only [List.mem_append] at h
  rcases h with (h | h) | h
  · unfold PModel.rangeOps at h
    rw [List.mem_flatMap] at h
    obtain ⟨i, _, h⟩ := h
    unfold PModel.elemOps at h
    split at h
    · simp only [List.mem_append, List.mem_singleton] at h
      rcases h with (((((((h | h) | h) | h) | h) | h) | h) | h) | h
      · exact powerOps_set h
      · subst h; rfl
      · exact link_set h
      · exact link_set h
      · exact link_set h
      · exact hbc h1 h
      · exact link_set h
      · exact hbc h2 h
      · exact link_set h
    · simp at h; subst h; rfl
  · rw [List.mem_flatMap] at h
    obtain ⟨l, _, h⟩ := h
    exact lineOps_set h
  · unfold PModel.blocksOps at h
    simp only [List.mem_append, List.mem_flatMap] at h
    rcases h with ⟨b, hb, h⟩ | ⟨b, hb, h⟩
    · exact hbl (h3 b hb) h
    · exact hbl (h4 b hb) h

theorem stack_noset {m : SModel K} (hf : NoFluxS m) (iniT : List K) {o : Res (Op K)} (h : o ∈ m.ops iniT) : setAt o = none := by
  obtain ⟨h1, h2, h3, h4⟩ := hf
  have hface : ∀ {bc : Option (BC K)} {i : Nat} {f g : K → K}, (∀ b ∈ bc, b.type ≠ .heatFlux) → o ∈ faceOps bc i f g →
      setAt o = none := by
    intro bc i f g hb ho
    unfold faceOps at ho
    split at ho
    · simp at ho; subst ho; rfl
    · exact absurd rfl (hb _ rfl)
    · simp at ho
  have hcs : ∀ {bc : Option (BC K)} {i : Nat} {p : SPrism K} {t : K} {cs : List (Nat × K)}, (∀ b ∈ bc, b.type ≠ .heatFlux) →
      o ∈ m.contactsOps iniT i p t bc cs → setAt o = none := by
    intro bc i p t cs hb ho
    unfold SModel.contactsOps at ho
    rw [List.mem_append] at ho
    rcases ho with ho | ho
    · rw [List.mem_flatMap] at ho
      obtain ⟨c, _, ho⟩ := ho
      unfold SModel.contactOp at ho
      split_ifs at ho
      · simp at ho
      · split at ho <;> (simp at ho; subst ho; rfl)
    · split_ifs at ho
      · exact hface hb ho
      · simp at ho
  have hlink : ∀ {i : Nat} {n : Option Nat} {r : SPrism K → K → K}, o ∈ m.link iniT i n r → setAt o = none := by
    intro i n r ho
    unfold SModel.link at ho
    split at ho
    · simp at ho
    · split_ifs at ho
      · split at ho <;> (simp at ho; subst ho; rfl)
      · simp at ho
  have hbl : ∀ {side : Elem K → Option Nat} {b : BC K × K × (Nat → Nat → Bool)}, b.1.type ≠ .heatFlux → o ∈ m.blockOps side b →
      setAt o = none := by
    intro side b hb ho
    unfold SModel.blockOps at ho
    split at ho
    · simp at ho
    · rw [List.mem_filterMap] at ho
      obtain ⟨p, _, ho⟩ := ho
      split_ifs at ho
      cases hty : b.1.type with
      | heatFlux => exact absurd hty hb
      | htc => rw [hty] at ho; simp at ho; subst ho; rfl
  unfold SModel.ops at h
  simp only [List.mem_append] at h
  rcases h with (h | h) | h
  · unfold SModel.rangeOps at h
    rw [List.mem_flatMap] at h
    obtain ⟨i, _, h⟩ := h
    unfold SModel.elemOps at h
    split at h
    · unfold SModel.restOps at h
      simp only [List.mem_append, List.mem_singleton] at h
      rcases h with h | h | h | h | h | h | h
      · exact powerOps_set h
      · subst h; rfl
      · exact hlink h
      · exact hlink h
      · exact hlink h
      · unfold SModel.topOps at h
        split at h
        · exact hface h1 h
        · split_ifs at h
          · exact hcs h1 h
          · simp at h
      · unfold SModel.botOps at h
        split at h
        · exact hface h2 h
        · split_ifs at h
          · exact hcs h2 h
          · simp at h
    · simp at h; subst h; rfl
  · rw [List.mem_flatMap] at h
    obtain ⟨l, _, h⟩ := h
    exact lineOps_set h
  · unfold SModel.blocksOps at h
    simp only [List.mem_append, List.mem_flatMap] at h
    rcases h with ⟨b, hb, h⟩ | ⟨b, hb, h⟩
    · exact hbl (h3 b hb) h
    · exact hbl (h4 b hb) h

theorem run_exn {minR : K} (l : List (Res (Op K))) : ∀ {net net' : Network K}, run minR net l = .ok net' → .exn ∉ l := by
  induction l with
  | nil => intro net net' _; simp
  | cons o l ih =>
    intro net net' h
    rcases o with op | _ | _
    · rw [run] at h
      cases h1 : op.exec minR net with
      | ub => rw [h1] at h; simp at h
      | exn => rw [h1] at h; simp at h
      | ok n1 => rw [h1, Res.bind_ok] at h; simpa using ih h
    · simp [run] at h
    · simp [run] at h

theorem wires_known {minR : K} {m : PModel K} {iniT : List K} {pre post : List (Res (Op K))} {net net' : Network K}
    (h : run minR net (pre ++ m.lines.flatMap (m.lineOps iniT) ++ post) = .ok net') {l : Line K} (hl : l ∈ m.lines) :
    l.id < iniT.length := by
  by_contra hn
  apply run_exn _ h
  simp only [List.mem_append, List.mem_flatMap]
  refine .inl (.inr ⟨l, hl, ?_⟩)
  unfold PModel.lineOps
  rw [List.getElem?_eq_none (by omega)]
  simp

theorem joule_lines [IsStrictOrderedRing K] {m : PModel K} {iniT : List K} (h : ∀ l ∈ m.lines, l.id < iniT.length) :
    ((m.lines.flatMap (m.lineOps iniT)).map added).sum = wireHeat m iniT := by
  unfold wireHeat
  generalize m.lines = ls at h
  induction ls with
  | nil => simp
  | cons l ls ih =>
    rw [List.flatMap_cons, List.map_append, List.sum_append, lineOps_added (h l (by simp)), ih (fun l hl => h l (by simp [hl]))]
    simp

/-- **C146, prism models without heat fluxes.** The intake is the heat flow of the network and the outtake is zero. -/
theorem c146_prism [IsStrictOrderedRing K] {minR : K} {m : PModel K} {iniT : List K} {net : Network K}
    (h : m.build minR iniT = .ok (some net)) (hf : NoFluxP m) :
    (prismSummary m iniT).intake = totalHF net ∧ (prismSummary m iniT).outtake = 0 := by
  have hrun := (PrismT.build_run h).2
  have hns : ∀ o ∈ m.ops iniT, setAt o = none := fun o ho => prism_noset hf iniT ho
  have ho : (prismSummary m iniT).outtake = 0 := by
    unfold PModel.ops at hns
    unfold prismSummary
    rw [tally_noset, tally_noset, tally_noset]
    · rfl
    · exact fun o ho => hns o (by simp [ho])
    · exact fun o ho => hns o (by simp only [List.mem_append]; exact .inl (.inr ho))
    · exact fun o ho => hns o (by simp [ho])
  refine ⟨?_, ho⟩
  have := c146_prism_heat h
  rw [ho, add_zero, replaced_zero _ hrun (once_of_noset hns) (fun o ho i hi => by rw [hns o ho] at hi; simp at hi), add_zero] at this
  exact this

/-- **C146, stackup prism models without heat fluxes.** The same. -/
theorem c146_stack [IsStrictOrderedRing K] {minR : K} {m : SModel K} {iniT : List K} {net : Network K}
    (h : m.build minR iniT = .ok (some net)) (hf : NoFluxS m) :
    (stackSummary m iniT).intake = totalHF net ∧ (stackSummary m iniT).outtake = 0 := by
  have hrun := (stack_run h).2
  have hns : ∀ o ∈ m.ops iniT, setAt o = none := fun o ho => stack_noset hf iniT ho
  have ho : (stackSummary m iniT).outtake = 0 := by
    unfold SModel.ops at hns
    unfold stackSummary
    rw [tally_noset, tally_noset, tally_noset]
    · rfl
    · exact fun o ho => hns o (by simp [ho])
    · exact fun o ho => hns o (by simp only [List.mem_append]; exact .inl (.inr ho))
    · exact fun o ho => hns o (by simp [ho])
  refine ⟨?_, ho⟩
  have := c146_stack_heat h
  rw [ho, add_zero, replaced_zero _ hrun (once_of_noset hns) (fun o ho i hi => by rw [hns o ho] at hi; simp at hi), add_zero] at this
  exact this

/-- **C146, joule heat.** The joule heat of the summary is that of the wires,
for prism and stackup prism models with any boundary conditions. -/
theorem c146_joule [IsStrictOrderedRing K] {minR : K} {iniT : List K} {net : Network K} :
    (∀ m : PModel K, m.build minR iniT = .ok (some net) → (prismSummary m iniT).joule = wireHeat m iniT) ∧
    (∀ m : SModel K, m.build minR iniT = .ok (some net) → (stackSummary m iniT).joule = wireHeat m.wires iniT) := by
  constructor
  · intro m h
    have hrun := (PrismT.build_run h).2
    unfold PModel.ops at hrun
    unfold prismSummary
    rw [tally_joule_false, tally_joule_true, tally_joule_false, joule_lines (fun l hl => wires_known hrun hl)]
    simp [fresh]
  · intro m h
    have hrun := (stack_run h).2
    unfold SModel.ops at hrun
    unfold stackSummary
    have e : m.lines = m.wires.lines := rfl
    rw [e] at hrun ⊢
    rw [tally_joule_false, tally_joule_true, tally_joule_false, joule_lines (fun l hl => wires_known hrun hl)]
    simp [fresh]

end Ecad.Summary
