import Verif.Thermal.ScenProps
import Verif.Thermal.StackPrismNetProps
/-!
C137: the scenarios of the nodes of networks built of grid, prism and stackup prism models.
-/
namespace Ecad.Scen
open Thermal GridT PrismT

variable {K : Type} [Field K] [LinearOrder K]

/-- effect of a call on the scenario of node `i` -/
def scenAt (i : Nat) : Res (Op K) → Nat → Nat
  | .ok (.scen j s), v => if j = i then s else v
  | _, v => v

theorem exec_scen {minR : K} (i : Nat) (net net' : Network K) (op : Op K) (h : op.exec minR net = .ok net') :
    scenOf net' i = scenAt i (.ok op) (scenOf net i) := by
  cases op <;> simp only [Op.exec, setC, setHF, addHF, setHTC, addHTC, setR_eq, upd_ok, scenAt] at h ⊢
  case append =>
    simp only [appendNode, Res.ok.injEq] at h; subst h
    unfold scenOf
    rw [get_append_default]
    split_ifs with hi
    · subst hi; simp [Node.default]
    · rfl
  all_goals
    obtain ⟨hlt, rfl⟩ := h
    unfold scenOf
    rw [get_modify]
    split_ifs with hi
    · subst hi; rw [List.getElem?_eq_getElem hlt]; rfl
    · rfl

theorem run_scen {minR : K} {l : List (Res (Op K))} {net net' : Network K} (h : run minR net l = .ok net') (i : Nat) :
    scenOf net' i = l.foldl (fun b o => scenAt i o b) (scenOf net i) :=
  run_fold (fun n => scenOf n i) (fun o b => scenAt i o b) (exec_scen i) l h

omit [Field K] [LinearOrder K] in
theorem fold_scen (i : Nat) (l : List (Res (Op K))) (s0 : Nat) :
    ((∀ s, .ok (.scen i s) ∉ l) ∧ l.foldl (fun b o => scenAt i o b) s0 = s0) ∨ .ok (.scen i (l.foldl (fun b o => scenAt i o b) s0)) ∈ l := by
  induction l generalizing s0 with
  | nil => exact .inl ⟨by simp, rfl⟩
  | cons o l ih =>
    rw [List.foldl_cons]
    rcases ih (scenAt i o s0) with ⟨h1, h2⟩ | h
    · by_cases ho : ∃ s, o = .ok (.scen i s)
      · obtain ⟨s, rfl⟩ := ho
        right
        rw [h2]
        simp [scenAt]
      · left
        refine ⟨fun s hm => ?_, ?_⟩
        · rcases List.mem_cons.1 hm with e | hm
          · exact ho ⟨s, e.symm⟩
          · exact h1 s hm
        · rw [h2]
          unfold scenAt
          split
          · rename_i j s
            split_ifs with hj
            · subst hj; exact absurd ⟨s, rfl⟩ ho
            · rfl
          · rfl
    · exact .inr (List.mem_cons_of_mem _ h)

omit [LinearOrder K] in
theorem fold_heat (i : Nat) (l : List (Res (Op K))) (h0 : K) (h : l.foldl (fun b o => Op.hfAt i o b) h0 ≠ h0) :
    ∃ v, .ok (.hf i v) ∈ l ∨ .ok (.addHF i v) ∈ l := by
  induction l generalizing h0 with
  | nil => exact absurd rfl h
  | cons o l ih =>
    rw [List.foldl_cons] at h
    by_cases ho : Op.hfAt i o h0 = h0
    · rw [ho] at h
      obtain ⟨v, hv⟩ := ih h0 h
      exact ⟨v, hv.imp (List.mem_cons_of_mem _) (List.mem_cons_of_mem _)⟩
    · unfold Op.hfAt at ho
      split at ho
      · rename_i j v
        by_cases hj : j = i
        · subst hj; exact ⟨v, .inl List.mem_cons_self⟩
        · rw [if_neg hj] at ho; exact absurd rfl ho
      · rename_i j v
        by_cases hj : j = i
        · subst hj; exact ⟨v, .inr List.mem_cons_self⟩
        · rw [if_neg hj] at ho; exact absurd rfl ho
      · exact absurd rfl ho

theorem new_scen (n i : Nat) : scenOf (Network.new noScen n : Network K) i = noScen := by
  unfold scenOf Network.new
  rw [List.getElem?_replicate]
  by_cases h : i < n
  · rw [if_pos h]; rfl
  · rw [if_neg h]

theorem new_hf (n i : Nat) : hfOf (Network.new noScen n : Network K) i = 0 := by
  unfold hfOf Network.new
  rw [List.getElem?_replicate]
  by_cases h : i < n
  · rw [if_pos h]; rfl
  · rw [if_neg h]


omit [Field K] [LinearOrder K] in
/-- a call that sets no scenario -/
def Quiet (o : Res (Op K)) : Prop := ∀ j s, o ≠ .ok (.scen j s)

omit [Field K] [LinearOrder K] in
theorem quiet_fold (i : Nat) (l : List (Res (Op K))) (h : ∀ o ∈ l, Quiet o) (b : Nat) : l.foldl (fun b o => scenAt i o b) b = b := by
  apply foldl_id
  intro o ho b
  have := h o ho
  unfold scenAt
  split
  · exact absurd rfl (this _ _)
  · rfl

theorem hot_ub [IsStrictOrderedRing K] {net : Network K} {k : Nat} (h : hfOf net k ≠ 0) (hs : scenOf net k = noScen) (refT : K) (e : K → Nat → K) (t : K)
    (x : Nat → K) (i : Nat) : rate net refT e t x i = .ub := by
  obtain ⟨n, hn, -, h1, h2⟩ := heated_mem h
  unfold rate
  rw [scens_ub net ⟨n, hn, by rw [h1]; exact h, ?_⟩]
  · rfl
  · rw [h2, hs]
    decide

/-! ## grid models -/

theorem grid_quiet (ip : List (K × K) → K → Res K) (m : GModel K) (iniT : List K) : ∀ o ∈ m.ops ip iniT, Quiet o := by
  have hlink : ∀ (i : Nat) (g : Size3) (d : Orient), ∀ o ∈ m.link i g d, Quiet o := by
    intro i g d o ho
    unfold GModel.link at ho
    dsimp only at ho
    split_ifs at ho
    · rw [List.mem_singleton] at ho; subst ho; intro j s h; simp at h
    · simp at ho
  intro o ho
  unfold GModel.ops at ho
  simp only [List.mem_append, List.mem_flatMap] at ho
  rcases ho with ((⟨i, -, ho⟩ | ⟨j, -, ho⟩) | ho) | ⟨b, -, ho⟩
  · unfold GModel.cellOps at ho
    split at ho
    · rw [List.mem_cons, List.mem_append, List.mem_append] at ho
      rcases ho with rfl | (ho | ho) | ho
      · intro j s h; simp at h
      · exact hlink _ _ _ o ho
      · exact hlink _ _ _ o ho
      · exact hlink _ _ _ o ho
    · rw [List.mem_singleton] at ho; subst ho; intro j s h; simp at h
    · rw [List.mem_singleton] at ho; subst ho; intro j s h; simp at h
  · unfold GModel.jumpOps at ho
    dsimp only at ho
    split_ifs at ho
    · simp at ho
    · rw [List.mem_singleton] at ho; subst ho; intro j s h; simp at h
    · rw [List.mem_singleton] at ho; subst ho; intro j s h; simp at h
  · have key : ∀ (ps : List (Nat × Power K)) (n : Nat), ∀ o ∈ m.powersOps ip iniT n ps, Quiet o := by
      intro ps
      induction ps with
      | nil => intro n o ho; simp [GModel.powersOps] at ho
      | cons q ps ih =>
        intro n o ho
        obtain ⟨z, p⟩ := q
        unfold GModel.powersOps at ho
        rw [List.mem_append] at ho
        rcases ho with ho | ho
        · cases p with
          | grid t =>
            simp only [GModel.powerOps, List.mem_flatMap] at ho
            obtain ⟨c, -, ho⟩ := ho
            unfold GModel.heatOps at ho
            dsimp only at ho
            split at ho
            · rw [List.mem_singleton] at ho; subst ho; intro j s h; simp at h
            · split at ho
              · rw [List.mem_singleton] at ho; subst ho; intro j s h; simp at h
              · simp at ho
              · rw [List.mem_singleton] at ho; subst ho; intro j s h; simp at h
              · rw [List.mem_singleton] at ho; subst ho; intro j s h; simp at h
          | block ll ur total =>
            simp only [GModel.powerOps, List.mem_cons, List.mem_map] at ho
            rcases ho with rfl | rfl | ⟨c, -, rfl⟩ <;> intro j s h <;> simp at h
        · exact ih _ o ho
    exact key _ _ o ho
  · unfold GModel.bcOps at ho
    split at ho
    · simp at ho
    · rw [List.mem_map] at ho
      obtain ⟨c, -, rfl⟩ := ho
      intro j s h
      unfold GModel.bcOp at h
      split at h <;> simp at h

/-- no node of a network built of a grid model has a scenario -/
theorem grid_scen {minR : K} {ip : List (K × K) → K → Res K} {m : GModel K} {iniT : List K} {net : Network K}
    (h : m.build minR ip iniT = .ok (some net)) (i : Nat) : scenOf net i = noScen := by
  unfold GModel.build at h
  split_ifs at h with hl
  · simp at h
  · cases hr : run minR (Network.new noScen m.total) (m.ops ip iniT) with
    | ok n =>
      rw [hr] at h
      simp only [Res.bind_ok, Res.ok.injEq, Option.some.injEq] at h
      subst h
      rw [run_scen hr, new_scen, quiet_fold _ _ (grid_quiet ip m iniT)]
    | ub => rw [hr] at h; simp at h
    | exn => rw [hr] at h; simp at h

/-- **C137 is false of the code for grid models**: whatever the model, if heat flows into any node of its network, the rates of the full solver are
undefined, for every excitation and at every time and temperature. -/
theorem c137_grid_refuted [IsStrictOrderedRing K] {minR : K} {ip : List (K × K) → K → Res K} {m : GModel K} {iniT : List K} {net : Network K}
    (h : m.build minR ip iniT = .ok (some net)) (hot : ∃ k, hfOf net k ≠ 0) (refT : K) (e : K → Nat → K) (t : K) (x : Nat → K) (i : Nat) :
    rate net refT e t x i = .ub := by
  obtain ⟨k, hk⟩ := hot
  exact hot_ub hk (grid_scen h k) refT e t x i

open Ecad.Geom Ecad.Units Ecad.L2C Ecad.GridExt Ecad.Balance Ecad.Response Ecad.LayoutResponse Ecad.Course in
/-- **C137 is false of the code for the grid models of layouts**: so it is for every proper layout whose components give off a power. -/
theorem c137_layout_refuted {S : Type} {a : In S} {user data : ℚ} {minR : ℚ} {ip : List (ℚ × ℚ) → ℚ → Res ℚ}
    (dist : Int × Int → Int × Int → ℚ) (pi : ℚ) (part : Box → S → ℚ) (h : Proper a user data) (hip : Pchip ip) (hmin : 0 < minR)
    {w : GridPower.Comp ℚ → ℚ} (hw : Constant a.comps w) (hp : power a w ≠ 0) (envT : ℚ) :
    ∃ m net, extract dist pi part a = .ok m ∧ m.build minR ip (List.replicate m.total envT) = .ok (some net) ∧
      ∀ e t x i, rate net envT e t x i = .ub := by
  obtain ⟨m, net, h1, h2, hn⟩ := net_exists dist pi part h hip hmin envT
  refine ⟨m, net, h1, h2, fun e t x i => c137_grid_refuted h2 ?_ envT e t x i⟩
  by_contra hc
  push Not at hc
  apply hp
  rw [← heat_total h hip hn hw]
  exact Finset.sum_eq_zero fun k _ => hc k

/-! ## prism models -/

/-- the scenario a model tells for element `i`: that of the power of a prism, or that of a line -/
def told (prisms : List (Prism K)) (lines : List (Line K)) (i : Nat) : Option Nat :=
  match prisms[i]? with
  | some p => p.elem.cell.power.map fun w => w.2.1
  | none => lines[i - prisms.length]?.map Line.scen

omit [LinearOrder K] in
theorem scenAt_writes (i : Nat) (o : Res (Op K)) (b : Nat) (h : Op.writes o ≠ some i) : scenAt i o b = b := by
  rcases o with op | _ | _
  · cases op <;> simp_all [Op.writes, scenAt]
  · rfl
  · rfl

omit [LinearOrder K] in
theorem power_scen (i : Nat) (p : Prism K) (t : K) (b : Nat) :
    (powerOps i p t).foldl (fun b o => scenAt i o b) b = (p.elem.cell.power.map fun w => w.2.1).getD b := by
  unfold powerOps
  rcases p.elem.cell.power with _ | ⟨ratio, scen, lut⟩
  · rfl
  · simp [scenAt]

theorem lineR_quiet {m : PModel K} {l : Line K} {t : K} {nb : Nat} : ∀ o ∈ m.lineR l t nb, Quiet o := by
  intro o h
  rcases mem_lineR h with rfl | ⟨_, v, rfl⟩ | ⟨_, _, v, rfl⟩ <;> intro j s h <;> simp at h

theorem line_other {m : PModel K} {iniT : List K} {l : Line K} {i : Nat} (h : l.id ≠ i) (b : Nat) :
    (m.lineOps iniT l).foldl (fun b o => scenAt i o b) b = b := by
  apply foldl_id
  intro o ho b
  rcases mem_lineOps ho with rfl | ⟨v, rfl⟩ | rfl | ⟨v, rfl⟩ | ⟨nb, _, t, _, ho⟩
  · rfl
  · rfl
  · simp [scenAt, h]
  · rfl
  · have := quiet_fold i [o] (fun o' ho' => by rw [List.mem_singleton] at ho'; subst ho'; exact lineR_quiet _ ho) b
    simpa using this

theorem line_self {m : PModel K} {iniT : List K} {l : Line K} {t : K} (ht : iniT[l.id]? = some t) (b : Nat) :
    (m.lineOps iniT l).foldl (fun b o => scenAt l.id o b) b = l.scen := by
  unfold PModel.lineOps
  rw [ht]
  simp only [List.foldl_append]
  have hq : ∀ ns : List Nat, ∀ b, (ns.flatMap (m.lineR l t)).foldl (fun b o => scenAt l.id o b) b = b := by
    intro ns b
    apply quiet_fold
    intro o ho
    rw [List.mem_flatMap] at ho
    obtain ⟨nb, _, ho⟩ := ho
    exact lineR_quiet o ho
  rw [hq, hq]
  split_ifs <;> simp [scenAt]

/-- the calls of lines numbered from `tot` set the scenario of the node of each line -/
theorem lines_scen {m : PModel K} {iniT : List K} {tot : Nat} {lines : List (Line K)} (hid : ∀ (n : Nat) (l : Line K), lines[n]? = some l → l.id = tot + n)
    (hl : iniT.length = lines.length + tot) (i b : Nat) :
    (lines.flatMap (m.lineOps iniT)).foldl (fun b o => scenAt i o b) b = if tot ≤ i then (lines[i - tot]?.map Line.scen).getD b else b := by
  have key : ∀ (ls pre : List (Line K)), pre ++ ls = lines → ∀ b, (ls.flatMap (m.lineOps iniT)).foldl (fun b o => scenAt i o b) b =
      if tot + pre.length ≤ i then (ls[i - (tot + pre.length)]?.map Line.scen).getD b else b := by
    intro ls
    induction ls with
    | nil => intro pre _ b; simp
    | cons l ls ih =>
      intro pre hpre b
      have hln : lines[pre.length]? = some l := by rw [← hpre]; simp
      have hidl := hid _ _ hln
      rw [List.flatMap_cons, List.foldl_append, ih (pre ++ [l]) (by rw [← hpre]; simp), List.length_append, List.length_singleton]
      by_cases he : l.id = i
      · subst he
        have hlt : pre.length < lines.length := (List.getElem?_eq_some_iff.1 hln).1
        obtain ⟨t, ht⟩ : ∃ t, iniT[l.id]? = some t := ⟨_, List.getElem?_eq_getElem (by omega)⟩
        rw [line_self ht, if_neg (by omega), if_pos (by omega), hidl, Nat.sub_self]
        rfl
      · rw [line_other he]
        by_cases h1 : tot + pre.length ≤ i
        · rw [if_pos (by omega), if_pos h1]
          obtain ⟨d, hd⟩ : ∃ d, i - (tot + pre.length) = d + 1 := ⟨i - (tot + pre.length) - 1, by omega⟩
          have : i - (tot + (pre.length + 1)) = d := by omega
          rw [hd, this, List.getElem?_cons_succ]
        · rw [if_neg (by omega), if_neg h1]
  have := key lines [] rfl b
  simpa using this

theorem block_quiet (m : PModel K) : ∀ o ∈ m.blocksOps, Quiet o := by
  intro o ho
  have key : ∀ side (bl : BC K × (Nat → Bool)), o ∈ m.blockOps side bl → Quiet o := by
    intro side bl ho
    unfold PModel.blockOps at ho
    cases hv : bl.1.value with
    | none => rw [hv] at ho; simp at ho
    | some v =>
      rw [hv] at ho
      simp only [List.mem_filterMap] at ho
      obtain ⟨p, hpm, hp⟩ := ho
      split_ifs at hp
      cases ht : bl.1.type <;> rw [ht] at hp <;> simp only [Option.some.injEq] at hp <;> subst hp <;> intro j s h <;> simp at h
  unfold PModel.blocksOps at ho
  simp only [List.mem_append, List.mem_flatMap] at ho
  rcases ho with ⟨bl, _, ho⟩ | ⟨bl, _, ho⟩
  · exact key _ _ ho
  · exact key _ _ ho

theorem rest_quiet (m : PModel K) (iniT : List K) (i : Nat) (p : Prism K) (t : K) : ∀ o ∈ m.restOps iniT i p t, Quiet o := by
  have hlink : ∀ {n r o}, o ∈ m.link iniT i n r → Quiet o := by
    intro n r o ho
    rcases mem_link ho with rfl | ⟨_, _, _, _, _, _, _, rfl⟩ <;> intro j s h <;> simp at h
  have hbc : ∀ {bc n o}, o ∈ m.bcOps bc i p n → Quiet o := by
    intro bc n o ho
    obtain ⟨v, _, _, rfl | rfl⟩ := mem_bcOps ho <;> intro j s h <;> simp at h
  intro o h
  unfold PModel.restOps at h
  simp only [List.mem_append, List.mem_singleton] at h
  rcases h with ((((((h | h) | h) | h) | h) | h) | h) | h
  · subst h; intro j s h; simp at h
  · exact hlink h
  · exact hlink h
  · exact hlink h
  · exact hbc h
  · exact hlink h
  · exact hbc h
  · exact hlink h

/-- the scenario of each node of the network of a prism model is the one told, or none -/
theorem prism_scen {minR : K} {m : PModel K} {iniT : List K} {net : Network K} (h : m.build minR iniT = .ok (some net)) (wf : m.WF) (i : Nat) :
    scenOf net i = (told m.prisms m.lines i).getD noScen := by
  obtain ⟨hl, hr⟩ := build_run h
  rw [run_scen hr, new_scen, PModel.ops, List.foldl_append, List.foldl_append, quiet_fold _ _ (block_quiet m),
    lines_scen wf.lines hl]
  unfold told
  have hlen := wf.prisms
  by_cases hi : i < totalPrisms m.off
  · obtain ⟨p, hp⟩ : ∃ p, m.prisms[i]? = some p := ⟨_, List.getElem?_eq_getElem (by omega)⟩
    obtain ⟨t, ht⟩ : ∃ t, iniT[i]? = some t := ⟨_, List.getElem?_eq_getElem (by rw [hl, PModel.total]; omega)⟩
    rw [if_neg (by omega), range_fold (scenAt i) m iniT i hi (scenAt_writes i), elemOps_eq hp ht, List.foldl_append,
      quiet_fold _ _ (rest_quiet m iniT i p t), power_scen, hp]
  · rw [if_pos (by omega), range_fold_lines (scenAt i) m iniT i (by omega) (scenAt_writes i), List.getElem?_eq_none (by omega : m.prisms.length ≤ i), hlen]

theorem nodes_beyond {net : Network K} {i : Nat} (h : net.length ≤ i) : hfOf net i = 0 := by
  unfold hfOf
  rw [List.getElem?_eq_none h]

/-- the heat of each node without a scenario told comes from the heat fluxes on the faces of its prism -/
theorem prism_hf {minR : K} {m : PModel K} {mesh : Mesh} {layers : Nat} {info : Nat → Nat → Option (Cell K)} {wires : List (Wire K)}
    (hx : Extracted m mesh layers info wires) {iniT : List K} {net : Network K} (h : m.build minR iniT = .ok (some net)) {i : Nat}
    (hi : told m.prisms m.lines i = none) :
    hfOf net i = 0 ∨ ∃ p, m.prisms[i]? = some p ∧ p.elem.cell.power = none ∧ hfOf net i = (m.faces .heatFlux p).getLastD 0 := by
  obtain ⟨wf, -⟩ := extracted_wf hx
  obtain ⟨hl, hr⟩ := build_run h
  have hlen := wf.prisms
  unfold told at hi
  by_cases h1 : i < totalPrisms m.off
  · obtain ⟨p, hp⟩ : ∃ p, m.prisms[i]? = some p := ⟨_, List.getElem?_eq_getElem (by omega)⟩
    obtain ⟨t, ht⟩ : ∃ t, iniT[i]? = some t := ⟨_, List.getElem?_eq_getElem (by rw [hl, PModel.total]; omega)⟩
    rw [hp] at hi
    simp only [Option.map_eq_none_iff] at hi
    right
    refine ⟨p, hp, hi, ?_⟩
    rw [(build_last h wf hp ht).1, PModel.sources, hi]
    simp
  · left
    obtain ⟨net', b1, b2⟩ := c63_builds hx minR hl
    rw [h] at b1
    injection b1 with b1
    injection b1 with b1
    rw [List.getElem?_eq_none (by omega : m.prisms.length ≤ i)] at hi
    simp only [Option.map_eq_none_iff, List.getElem?_eq_none_iff] at hi
    apply nodes_beyond
    rw [b1, b2, PModel.total]
    omega

/-- **C137 for prism models** without boundary conditions for the heat flux, the scenarios told being at most 2^24: the full solver scales the heat of
each prism by the excitation of the scenario of its power, and that of each bond wire segment by the excitation of its scenario. -/
theorem c137_prism_partial [IsStrictOrderedRing K] {minR : K} {m : PModel K} {mesh : Mesh} {layers : Nat} {info : Nat → Nat → Option (Cell K)}
    {wires : List (Wire K)} (hx : Extracted m mesh layers info wires) {iniT : List K} {net : Network K} (h : m.build minR iniT = .ok (some net))
    (hbc : ∀ bc, m.topBC = some bc ∨ m.botBC = some bc ∨ (∃ b ∈ m.topBlocks ++ m.botBlocks, b.1 = bc) → bc.type = .htc)
    (hs : ∀ i s, told m.prisms m.lines i = some s → s ≤ 2 ^ 24) (refT : K) (e : K → Nat → K) (t : K) (x : Nat → K) (i : Nat) :
    rate net refT e t x i = .ok (balance net refT (fun k => ((told m.prisms m.lines k).map (e t)).getD 0) x i) := by
  obtain ⟨wf, -⟩ := extracted_wf hx
  have hface : ∀ p, m.faces .heatFlux p = [] := by
    intro p
    have hon : ∀ bc area, (m.topBC = some bc ∨ m.botBC = some bc ∨ ∃ b ∈ m.topBlocks ++ m.botBlocks, b.1 = bc) → onFace .heatFlux bc area = [] := by
      intro bc area hb
      unfold onFace
      rw [hbc bc hb]
      cases bc.value <;> simp
    unfold PModel.faces
    have e1 : (m.topBC.toList.flatMap fun bc => onFace .heatFlux bc (m.area p.elem.tri)) = [] := by
      rw [List.flatMap_eq_nil_iff]
      intro bc hb
      exact hon bc _ (.inl (by simpa using hb))
    have e2 : (m.botBC.toList.flatMap fun bc => onFace .heatFlux bc (m.area p.elem.tri)) = [] := by
      rw [List.flatMap_eq_nil_iff]
      intro bc hb
      exact hon bc _ (.inr (.inl (by simpa using hb)))
    rw [e1, e2]
    simp only [ite_self, List.nil_append, List.append_eq_nil_iff, List.flatMap_eq_nil_iff]
    constructor
    · intro b hb
      rw [hon b.1 _ (.inr (.inr ⟨b, by simp [hb], rfl⟩)), ite_self]
    · intro b hb
      rw [hon b.1 _ (.inr (.inr ⟨b, by simp [hb], rfl⟩)), ite_self]
  have hhot : ∀ k, hfOf net k ≠ 0 → ∃ s, told m.prisms m.lines k = some s := by
    intro k hk
    cases htold : told m.prisms m.lines k with
    | some s => exact ⟨s, rfl⟩
    | none =>
      exfalso
      rcases prism_hf hx h htold with h0 | ⟨p, -, -, h0⟩
      · exact hk h0
      · rw [hface] at h0; exact hk h0
  rw [c137_scenario_partial]
  · rw [balance_congr]
    intro k hk
    obtain ⟨s, hts⟩ := hhot k hk
    rw [prism_scen h wf, hts]
    rfl
  · intro k hk
    obtain ⟨s, hts⟩ := hhot k hk
    rw [prism_scen h wf, hts]
    exact hs k s hts

/-- **C137 is false of the code for prism models with heat fluxes**: if the last heat flux on the faces of some prism without a power is not zero, the
rates of the full solver are undefined. -/
theorem c137_flux_refuted [IsStrictOrderedRing K] {minR : K} {m : PModel K} {mesh : Mesh} {layers : Nat} {info : Nat → Nat → Option (Cell K)}
    {wires : List (Wire K)} (hx : Extracted m mesh layers info wires) {iniT : List K} {net : Network K} (h : m.build minR iniT = .ok (some net))
    {n : Nat} {p : Prism K} (hp : m.prisms[n]? = some p) (hw : p.elem.cell.power = none) (hf : (m.faces .heatFlux p).getLastD 0 ≠ 0)
    (refT : K) (e : K → Nat → K) (t : K) (x : Nat → K) (i : Nat) : rate net refT e t x i = .ub := by
  obtain ⟨wf, -⟩ := extracted_wf hx
  have htold : told m.prisms m.lines n = none := by unfold told; rw [hp]; simp [hw]
  refine hot_ub (k := n) ?_ (by rw [prism_scen h wf, htold]; rfl) refT e t x i
  obtain ⟨hl, -⟩ := build_run h
  have hlen := wf.prisms
  have hn := (List.getElem?_eq_some_iff.1 hp).1
  obtain ⟨t, ht⟩ : ∃ t, iniT[n]? = some t := ⟨_, List.getElem?_eq_getElem (by rw [hl, PModel.total]; omega)⟩
  rw [(build_last h wf hp ht).1, PModel.sources, hw]
  simpa using hf

/-! ## stackup prism models -/

theorem stack_rest_quiet (m : SModel K) (iniT : List K) (i : Nat) (p : SPrism K) (t : K) : ∀ o ∈ m.restOps iniT i p t, Quiet o := by
  have hlink : ∀ {n r o}, o ∈ m.link iniT i n r → Quiet o := by
    intro n r o ho
    rcases stack_mem_link ho with ⟨rfl, _⟩ | ⟨_, _, _, _, _, _, _, rfl⟩ <;> intro j s h <;> simp at h
  intro o h
  unfold SModel.restOps at h
  rw [List.mem_append, List.mem_append, List.mem_append, List.mem_append] at h
  rcases h with h | h | h | h | h
  · rw [List.mem_singleton] at h; subst h; intro j s h; simp at h
  · exact hlink h
  · exact hlink h
  · exact hlink h
  · rcases mem_topBot h with ⟨c, -, h⟩ | ⟨v, rfl⟩ | ⟨v, rfl⟩
    · rcases mem_contactOp h with ⟨rfl, _⟩ | ⟨_, _, _, _, _, rfl⟩ <;> intro j s h <;> simp at h
    · intro j s h; simp at h
    · intro j s h; simp at h

section
variable {minR : K} {m : SModel K} {g : Tris K} {meshes : List Mesh} {info : Nat → Nat → Option (Cell K)} {wires : List (Wire K)} {iniT : List K} {net : Network K}

/-- the scenario of each node of the network of a stackup prism model is the one told, or none -/
theorem stack_scen (hx : FromMeshes m g meshes info wires) (h : m.build minR iniT = .ok (some net)) (i : Nat) :
    scenOf net i = (told (m.prisms.map SPrism.base) m.lines i).getD noScen := by
  obtain ⟨hlen, hst, hlines⟩ := fromMeshes_facts hx
  obtain ⟨hl, hr⟩ := stack_run h
  rw [run_scen hr, new_scen, SModel.ops, stacked_blocks hst, List.append_nil, List.foldl_append, lines_scen hlines.id hl]
  unfold told
  rw [List.getElem?_map]
  by_cases hi : i < totalPrisms m.off
  · obtain ⟨p, hp⟩ : ∃ p, m.prisms[i]? = some p := ⟨_, List.getElem?_eq_getElem (by omega)⟩
    obtain ⟨t, ht⟩ : ∃ t, iniT[i]? = some t := ⟨_, List.getElem?_eq_getElem (by rw [hl, SModel.total]; omega)⟩
    have helem : m.elemOps iniT i = powerOps i p.base t ++ m.restOps iniT i p t := by
      unfold SModel.elemOps; rw [hp, ht]
    rw [if_neg (by omega), stack_range_fold (scenAt i) m iniT i hi (scenAt_writes i), helem, List.foldl_append,
      quiet_fold _ _ (stack_rest_quiet m iniT i p t), power_scen, hp]
    rfl
  · rw [if_pos (by omega), List.getElem?_eq_none (by omega : m.prisms.length ≤ i), List.length_map, hlen, fold_writes (scenAt i) i (scenAt_writes i)]
    have : (m.rangeOps iniT (0, totalPrisms m.off)).filter (fun o => Op.writes o = some i) = [] := by
      rw [List.filter_eq_nil_iff]
      intro o ho
      unfold SModel.rangeOps at ho
      rw [List.mem_flatMap] at ho
      obtain ⟨j, hj, ho⟩ := ho
      rw [List.mem_range'_1] at hj
      rcases (stack_writes ho).2 with rfl | h
      · simp [Op.writes]
      · rw [h]; simp; omega
    rw [this]
    rfl

/-- **C137 for stackup prism models** without uniform boundary conditions for the heat flux, the scenarios told being at most 2^24 -/
theorem c137_stack_partial [IsStrictOrderedRing K] (hx : FromMeshes m g meshes info wires) (h : m.build minR iniT = .ok (some net))
    (hbc : ∀ bc, m.topBC = some bc ∨ m.botBC = some bc → bc.type = .htc)
    (hs : ∀ i s, told (m.prisms.map SPrism.base) m.lines i = some s → s ≤ 2 ^ 24) (refT : K) (e : K → Nat → K) (t : K) (x : Nat → K) (i : Nat) :
    rate net refT e t x i = .ok (balance net refT (fun k => ((told (m.prisms.map SPrism.base) m.lines k).map (e t)).getD 0) x i) := by
  have hask : ∀ bc f, (m.topBC = bc ∨ m.botBC = bc) → asked (K := K) .heatFlux bc f = [] := by
    intro bc f hb
    cases bc with
    | none => rfl
    | some bc =>
      have := hbc bc hb
      obtain ⟨ty, v⟩ := bc
      simp only at this
      subst this
      cases v <;> simp [asked]
  have hhot : ∀ k, hfOf net k ≠ 0 → ∃ s, told (m.prisms.map SPrism.base) m.lines k = some s := by
    intro k hk
    obtain ⟨hlen, hst, hlines⟩ := fromMeshes_facts hx
    obtain ⟨hl, hr⟩ := stack_run h
    unfold told
    rw [List.getElem?_map]
    by_cases hi : k < totalPrisms m.off
    · obtain ⟨p, hp⟩ : ∃ p, m.prisms[k]? = some p := ⟨_, List.getElem?_eq_getElem (by omega)⟩
      obtain ⟨t, ht⟩ : ∃ t, iniT[k]? = some t := ⟨_, List.getElem?_eq_getElem (by rw [hl, SModel.total]; omega)⟩
      have htop : m.topAsked .heatFlux k p = [] := by
        unfold SModel.topAsked
        split
        · exact hask _ _ (.inl rfl)
        · rw [hask _ _ (.inl rfl), ite_self]
      have hbot : m.botAsked .heatFlux k p = [] := by
        unfold SModel.botAsked
        split
        · exact hask _ _ (.inr rfl)
        · rw [hask _ _ (.inr rfl), ite_self]
      rw [(stack_last hx h hp ht).1, htop, hbot] at hk
      rw [hp]
      cases hw : p.base.elem.cell.power with
      | none => rw [hw] at hk; simp at hk
      | some w => simp [hw]
    · rw [List.getElem?_eq_none (by omega : m.prisms.length ≤ k), List.length_map, hlen]
      simp only [Option.map_none]
      obtain ⟨net', b1, b2⟩ := c78_builds hx minR hl
      rw [h] at b1
      injection b1 with b1
      injection b1 with b1
      have hlt : k < net.length := by
        by_contra hc
        exact hk (nodes_beyond (by omega))
      rw [b1, b2, SModel.total] at hlt
      rw [List.getElem?_eq_getElem (by omega)]
      exact ⟨_, rfl⟩
  rw [c137_scenario_partial]
  · rw [balance_congr]
    intro k hk
    obtain ⟨s, hts⟩ := hhot k hk
    rw [stack_scen hx h, hts]
    rfl
  · intro k hk
    obtain ⟨s, hts⟩ := hhot k hk
    rw [stack_scen hx h, hts]
    exact hs k s hts

/-- **C137 is false of the code for stackup prism models with heat fluxes**: if heat flows into the node of some prism without a power, the rates of the
full solver are undefined. -/
theorem c137_stack_refuted [IsStrictOrderedRing K] (hx : FromMeshes m g meshes info wires) (h : m.build minR iniT = .ok (some net)) {n : Nat} {p : SPrism K}
    (hp : m.prisms[n]? = some p) (hw : p.base.elem.cell.power = none) (hf : hfOf net n ≠ 0) (refT : K) (e : K → Nat → K) (t : K) (x : Nat → K) (i : Nat) :
    rate net refT e t x i = .ub := by
  refine hot_ub hf ?_ refT e t x i
  rw [stack_scen hx h]
  unfold told
  rw [List.getElem?_map, hp]
  simp [hw]

end

/-! ## examples -/

/-- two nodes of the scenarios 3 and 5: each is scaled by the excitation of its own -/
example : rate ([⟨3, none, 2, 4, 1, [(1, 1)]⟩, ⟨5, none, 1, 6, 0, []⟩] : Network ℚ) 0 (fun t s => t * s) 1 (fun _ => 0) 0 = .ok (12 / 2) ∧
    rate ([⟨3, none, 2, 4, 1, [(1, 1)]⟩, ⟨5, none, 1, 6, 0, []⟩] : Network ℚ) 0 (fun t s => t * s) 1 (fun _ => 0) 1 = .ok 30 := by
  decide +kernel

/-- the scenario 2^24 + 1 becomes 2^24, none and the last ones become undefined, and a node without heat needs no scenario -/
example : rate ([⟨2 ^ 24 + 1, none, 1, 1, 0, []⟩] : Network ℚ) 0 (fun _ s => s) 1 (fun _ => 0) 0 = .ok (2 ^ 24) ∧
    rate ([⟨3, none, 2, 4, 1, [(1, 1)]⟩, ⟨noScen, none, 1, 6, 0, []⟩] : Network ℚ) 0 (fun t s => t * s) 1 (fun _ => 0) 0 = .ub ∧
    rate ([⟨3, none, 2, 4, 1, [(1, 1)]⟩, ⟨2 ^ 64 - 2 ^ 39, none, 1, 6, 0, []⟩] : Network ℚ) 0 (fun t s => t * s) 1 (fun _ => 0) 0 = .ub ∧
    rate ([⟨3, none, 2, 4, 1, [(1, 1)]⟩, ⟨2 ^ 64 - 2 ^ 39 - 1, none, 1, 6, 0, []⟩] : Network ℚ) 0 (fun t s => t * s) 1 (fun _ => 0) 1 = .ok (6 * (2 ^ 64 - 2 ^ 40)) ∧
    rate ([⟨3, none, 2, 4, 1, [(1, 1)]⟩, ⟨noScen, none, 1, 0, 0, []⟩] : Network ℚ) 0 (fun t s => t * s) 1 (fun _ => 0) 0 = .ok 6 := by
  decide +kernel

/-- the reduced solver -/
example : inputs true 300 (fun (t : ℚ) s => t * s) 2 ([⟨3, none, 2, 4, 1, [(1, 1)]⟩, ⟨5, none, 1, 6, 0, []⟩, ⟨noScen, none, 1, 0, 0, []⟩] : Network ℚ) = [324, 60] := by
  decide +kernel

/-- hypotheses of `c137_prism_partial`: the model of C63, with a wire of scenario 0 and no power -/
example : ∃ net, exModel.build (1 / 1000) [25, 25, 25, 25, 25] = .ok (some net) ∧ (∃ k, hfOf net k ≠ 0) ∧ ∀ e t x i,
    rate net 25 e t x i = .ok (balance net 25 (fun k => ((told exModel.prisms exModel.lines k).map (e t)).getD 0) x i) := by
  obtain ⟨net, h, -⟩ := c63_builds exModel_extracted (1 / 1000) (iniT := [25, 25, 25, 25, 25]) rfl
  refine ⟨net, h, ⟨3, ?_⟩, fun e t x i => c137_prism_partial exModel_extracted h ?_ ?_ 25 e t x i⟩
  · rw [build_line h (extracted_wf exModel_extracted).1 (n := 0) (l := ⟨3, 0, 0, 1, 1, 1, [0], [4]⟩) (t := 25) rfl rfl]
    norm_num [PModel.joule, exModel]
  · rintro bc (hb | hb | ⟨b, hb, -⟩)
    · simp only [exModel, Option.some.injEq] at hb; subst hb; rfl
    · simp [exModel] at hb
    · simp [exModel] at hb
  · intro i s
    unfold told
    match i with
    | 0 => intro hs; simp [exModel, prismAt, elemAt] at hs
    | 1 => intro hs; simp [exModel, prismAt, elemAt] at hs
    | 2 => intro hs; simp [exModel, prismAt, elemAt] at hs
    | 3 => intro hs; simp [exModel] at hs; omega
    | 4 => intro hs; simp [exModel] at hs; omega
    | i + 5 => intro hs; simp [exModel] at hs

/-- hypotheses of `c137_flux_refuted`: the same with a heat flux on the bottom -/
example : ∃ net, { exModel with botBC := some ⟨.heatFlux, some 2⟩ }.build (1 / 1000) [25, 25, 25, 25, 25] = .ok (some net) ∧ ∀ e t x i,
    rate net 25 e t x i = .ub := by
  have hx : Extracted { exModel with botBC := some ⟨.heatFlux, some 2⟩ } exMesh 2 exInfo [exWire] :=
    ⟨exModel_extracted.prisms, exModel_extracted.lines, exModel_extracted.ends⟩
  obtain ⟨net, h, -⟩ := c63_builds hx (1 / 1000) (iniT := [25, 25, 25, 25, 25]) rfl
  refine ⟨net, h, fun e t x i => c137_flux_refuted hx h (n := 2) rfl rfl ?_ 25 e t x i⟩
  decide +kernel

/-- hypotheses of `c137_stack_partial`: the model of C78 without its heat flux -/
example : ∃ net, { exStack with botBC := none }.build (1 / 1000) [25, 25, 25, 25, 25] = .ok (some net) ∧ ∀ e t x i,
    rate net 25 e t x i = .ok (balance net 25 (fun k => ((told (exStack.prisms.map SPrism.base) exStack.lines k).map (e t)).getD 0) x i) := by
  have hx : FromMeshes { exStack with botBC := none } exTris [exMesh, exMesh] exInfoS [exWire] :=
    ⟨exStack_from.prisms, exStack_from.lines, exStack_from.ends⟩
  obtain ⟨net, h, -⟩ := c78_builds hx (1 / 1000) (iniT := [25, 25, 25, 25, 25]) rfl
  refine ⟨net, h, fun e t x i => c137_stack_partial hx h ?_ ?_ 25 e t x i⟩
  · rintro bc (hb | hb)
    · simp only [exStack, Option.some.injEq] at hb; subst hb; rfl
    · simp at hb
  · have h5 : ∀ i < 5, told (exStack.prisms.map SPrism.base) exStack.lines i = none ∨ told (exStack.prisms.map SPrism.base) exStack.lines i = some 0 := by
      decide +kernel
    have hl : (exStack.prisms.map SPrism.base).length = 3 ∧ exStack.lines.length = 2 := by decide +kernel
    intro i s hs
    change told (exStack.prisms.map SPrism.base) exStack.lines i = some s at hs
    by_cases hi : i < 5
    · rcases h5 i hi with e | e <;> rw [e] at hs <;> simp at hs
      omega
    · unfold told at hs
      rw [List.getElem?_eq_none (by omega), List.getElem?_eq_none (by omega)] at hs
      simp at hs

/-- hypotheses of `c137_stack_refuted`: the model of C78 -/
example : ∃ net, exStack.build (1 / 1000) [25, 25, 25, 25, 25] = .ok (some net) ∧ ∀ e t x i, rate net 25 e t x i = .ub := by
  obtain ⟨net, h, -⟩ := c78_builds exStack_from (1 / 1000) (iniT := [25, 25, 25, 25, 25]) rfl
  have h0 : (exStack.build (1 / 1000) [25, 25, 25, 25, 25]).bind (fun r => .ok (r.map fun net => hfOf net 0)) = .ok (some (7 / 2)) := by decide +kernel
  rw [h] at h0
  simp only [Res.bind_ok, Option.map_some, Res.ok.injEq, Option.some.injEq] at h0
  have hp : (exStack.prisms[0]?.map fun p => p.base.elem.cell.power.isNone) = some true := by decide +kernel
  cases hq : exStack.prisms[0]? with
  | none => rw [hq] at hp; simp at hp
  | some p =>
    rw [hq] at hp
    simp only [Option.map_some, Option.some.injEq, Option.isNone_iff_eq_none] at hp
    exact ⟨net, h, fun e t x i => c137_stack_refuted exStack_from h hq hp (by rw [h0]; norm_num) 25 e t x i⟩

open Ecad.Geom Ecad.Units Ecad.L2C Ecad.GridExt Ecad.Balance Ecad.Response Ecad.LayoutResponse Ecad.Course in
/-- hypotheses of `c137_layout_refuted`: the layouts of C134 -/
example (dist : Int × Int → Int × Int → ℚ) (pi : ℚ) (part : Box → Box → ℚ) (ip : List (ℚ × ℚ) → ℚ → Res ℚ) (hip : Pchip ip) :
    ∃ m net, extract dist pi part { exL 5 with comps := [exC 8, exD 1] } = .ok m ∧
      m.build (1 / 1000) ip (List.replicate m.total 300) = .ok (some net) ∧ ∀ e t x i, rate net 300 e t x i = .ub := by
  refine c137_layout_refuted dist pi part (exProper' 5 (by norm_num) 8 1) hip (by norm_num) (w := exW) ?_ ?_ 300
  · intro c hc e he
    simp only [List.mem_cons, List.not_mem_nil, or_false] at hc
    rcases hc with rfl | rfl
    · simp only [exC, List.mem_cons, List.not_mem_nil, or_false] at he
      subst he
      rfl
    · simp only [exD, List.mem_cons, List.not_mem_nil, or_false] at he
      rcases he with rfl | rfl <;> rfl
  · unfold Balance.power
    simp only [List.map_cons, List.map_nil, List.sum_cons, List.sum_nil]
    have h1 : Heats { exL 5 with comps := [exC 8, exD 1] } (exC 8) := ⟨by simp [exC], by simp [exC], ⟨9, "D1", 5, false⟩, by simp [exL, GridExt.exIn], rfl⟩
    have h2 : Heats { exL 5 with comps := [exC 8, exD 1] } (exD 1) := ⟨by simp [exD], by simp [exD], ⟨7, "M1", 3, true⟩, by simp [exL, GridExt.exIn], rfl⟩
    rw [if_pos h1, if_pos h2]
    norm_num [exW, exC, exD]

end Ecad.Scen
