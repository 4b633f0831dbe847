import Verif.Thermal.OpsModel
import Verif.Thermal.SetRProps
import Verif.Thermal.MnaProps
/-!
What a list of calls does to a network: lemmas shared by the builders.
-/
namespace Ecad.Thermal

variable {K : Type} [Field K] [LinearOrder K]

/-- effect of a call on the heat flow of node `i` -/
def Op.hfAt (i : Nat) : Res (Op K) → K → K
  | .ok (.hf j v), h => if j = i then v else h
  | .ok (.addHF j v), h => if j = i then h + v else h
  | _, h => h

/-- effect of a call on the transfer coefficient of node `i` -/
def Op.htcAt (i : Nat) : Res (Op K) → K → K
  | .ok (.htc j v), h => if j = i then v else h
  | .ok (.addHTC j v), h => if j = i then h + v else h
  | _, h => h

/-- effect of a call on the capacity of node `i` -/
def Op.cAt (i : Nat) : Res (Op K) → K → K
  | .ok (.c j v), h => if j = i then v else h
  | _, h => h

/-- conductance placed by a call between two nodes -/
def Op.gAt (minR : K) (a b : Nat) : Res (Op K) → K
  | .ok (.r i j v) => if (i = a ∧ j = b) ∨ (i = b ∧ j = a) then 1 / max v minR else 0
  | _ => 0

/-- number of nodes appended by a call -/
def Op.nodes : Res (Op K) → Nat
  | .ok .append => 1
  | _ => 0

/-- the call finds its node in a network of `n` nodes -/
def Op.Fits (n : Nat) : Res (Op K) → Prop
  | .ok (.scen i _) => i < n
  | .ok (.c i _) => i < n
  | .ok (.hf i _) => i < n
  | .ok (.addHF i _) => i < n
  | .ok (.htc i _) => i < n
  | .ok (.addHTC i _) => i < n
  | .ok (.r a b _) => min a b < n
  | .ok .append => True
  | .ub => False
  | .exn => False

/-- nodes appended by a list of calls -/
def nodesOf (l : List (Res (Op K))) : Nat := (l.map Op.nodes).sum

/-- all calls find their nodes -/
def Safe : Nat → List (Res (Op K)) → Prop
  | _, [] => True
  | n, o :: l => Op.Fits n o ∧ Safe (n + Op.nodes o) l

omit [Field K] [LinearOrder K] in
@[simp] theorem nodesOf_nil : nodesOf ([] : List (Res (Op K))) = 0 := rfl
omit [Field K] [LinearOrder K] in
@[simp] theorem nodesOf_cons (o : Res (Op K)) (l) : nodesOf (o :: l) = Op.nodes o + nodesOf l := rfl
omit [Field K] [LinearOrder K] in
@[simp] theorem nodesOf_append (l l' : List (Res (Op K))) : nodesOf (l ++ l') = nodesOf l + nodesOf l' := by
  simp [nodesOf]

omit [Field K] [LinearOrder K] in
theorem safe_append (l l' : List (Res (Op K))) : ∀ n, Safe n (l ++ l') ↔ Safe n l ∧ Safe (n + nodesOf l) l' := by
  induction l with
  | nil => intro n; simp [Safe]
  | cons o l ih => intro n; simp [Safe, ih, and_assoc, Nat.add_assoc]

omit [Field K] [LinearOrder K] in
theorem fits_mono {n m : Nat} (h : n ≤ m) {o : Res (Op K)} (ho : Op.Fits n o) : Op.Fits m o := by
  rcases o with op | _ | _
  · cases op <;> simp only [Op.Fits] at * <;> omega
  · exact ho
  · exact ho

omit [Field K] [LinearOrder K] in
/-- calls that append nothing are safe if each fits -/
theorem safe_of_fits {l : List (Res (Op K))} : ∀ {n : Nat}, (∀ o ∈ l, Op.Fits n o) → Safe n l := by
  induction l with
  | nil => intro n _; trivial
  | cons o l ih =>
    intro n h
    refine ⟨h o (by simp), ih fun o' ho' => fits_mono (Nat.le_add_right _ _) (h o' (by simp [ho']))⟩

omit [LinearOrder K] in
theorem upd_ok {net net' : Network K} {i : Nat} {f : Node K → Node K} :
    upd net i f = .ok net' ↔ i < net.length ∧ net' = net.modify i f := by
  unfold upd
  split
  · rename_i h; simp [h, eq_comm]
  · rename_i h; simp [h]

omit [LinearOrder K] in
theorem modify_length {α : Type _} (l : List α) (i : Nat) (f : α → α) : (l.modify i f).length = l.length := by
  simp

theorem exec_length {minR : K} {net net' : Network K} {op : Op K} (h : op.exec minR net = .ok net') :
    net'.length = net.length + Op.nodes (.ok op) := by
  cases op <;> simp only [Op.exec, setC, setHF, addHF, setHTC, addHTC, setR_eq, upd_ok, Op.nodes] at h ⊢
  case append => simp [appendNode] at h; subst h; simp
  all_goals obtain ⟨_, rfl⟩ := h; simp

theorem exec_fits (minR : K) (net : Network K) (op : Op K) :
    (∃ net', op.exec minR net = .ok net') ↔ Op.Fits net.length (.ok op) := by
  cases op <;> simp only [Op.exec, setC, setHF, addHF, setHTC, addHTC, setR_eq, upd_ok, Op.Fits]
  case append => simp
  all_goals simp

theorem run_length {minR : K} (l : List (Res (Op K))) : ∀ {net net' : Network K}, run minR net l = .ok net' →
    net'.length = net.length + nodesOf l := by
  induction l with
  | nil => intro net net' h; simp [run] at h; simp [h]
  | cons o l ih =>
    intro net net' h
    rcases o with op | _ | _
    · rw [run] at h
      cases h1 : op.exec minR net with
      | ub => rw [h1] at h; simp at h
      | exn => rw [h1] at h; simp at h
      | ok n1 =>
        rw [h1, Res.bind_ok] at h
        rw [ih h, exec_length h1, nodesOf_cons, Nat.add_assoc]
    · simp [run] at h
    · simp [run] at h

/-- the calls succeed exactly if all find their nodes -/
theorem run_safe {minR : K} (l : List (Res (Op K))) : ∀ {net : Network K},
    (∃ net', run minR net l = .ok net') ↔ Safe net.length l := by
  induction l with
  | nil => intro net; simp [run, Safe]
  | cons o l ih =>
    intro net
    rcases o with op | _ | _
    · rw [run, Safe, ← exec_fits minR net op]
      cases h1 : op.exec minR net with
      | ub => simp
      | exn => simp
      | ok n1 =>
        rw [Res.bind_ok, ih, exec_length h1]
        simp
    · simp [run, Safe, Op.Fits]
    · simp [run, Safe, Op.Fits]

/-- a quantity read off the nodes follows the effects of the calls on it -/
theorem run_fold {minR : K} {β : Type _} (q : Network K → β) (eff : Res (Op K) → β → β)
    (hq : ∀ (net net' : Network K) (op : Op K), op.exec minR net = .ok net' → q net' = eff (.ok op) (q net))
    (l : List (Res (Op K))) : ∀ {net net' : Network K}, run minR net l = .ok net' →
    q net' = l.foldl (fun b o => eff o b) (q net) := by
  induction l with
  | nil => intro net net' h; simp [run] at h; simp [h]
  | cons o l ih =>
    intro net net' h
    rcases o with op | _ | _
    · rw [run] at h
      cases h1 : op.exec minR net with
      | ub => rw [h1] at h; simp at h
      | exn => rw [h1] at h; simp at h
      | ok n1 =>
        rw [h1, Res.bind_ok] at h
        rw [ih h, hq _ _ _ h1, List.foldl_cons]
    · simp [run] at h
    · simp [run] at h

theorem get_append_default (net : Network K) (n : Node K) (i : Nat) :
    (net ++ [n])[i]? = if i = net.length then some n else net[i]? := by
  by_cases h : i = net.length
  · subst h; simp
  · rw [if_neg h]
    by_cases h2 : i < net.length
    · rw [List.getElem?_append_left h2]
    · rw [List.getElem?_eq_none (by simp; omega), List.getElem?_eq_none (by omega)]

theorem exec_hf {minR : K} (i : Nat) (net net' : Network K) (op : Op K) (h : op.exec minR net = .ok net') :
    hfOf net' i = Op.hfAt i (.ok op) (hfOf net i) := by
  cases op <;> simp only [Op.exec, setC, setHF, addHF, setHTC, addHTC, setR_eq, upd_ok, Op.hfAt] at h ⊢
  case append =>
    simp only [appendNode, Res.ok.injEq] at h; subst h
    unfold hfOf
    rw [get_append_default]
    split_ifs with hi
    · subst hi; simp [Node.default]
    · rfl
  all_goals
    obtain ⟨hlt, rfl⟩ := h
    unfold hfOf
    rw [get_modify]
    split_ifs with hi
    · subst hi; rw [List.getElem?_eq_getElem hlt]; rfl
    · rfl

theorem exec_htc {minR : K} (i : Nat) (net net' : Network K) (op : Op K) (h : op.exec minR net = .ok net') :
    htcOf net' i = Op.htcAt i (.ok op) (htcOf net i) := by
  cases op <;> simp only [Op.exec, setC, setHF, addHF, setHTC, addHTC, setR_eq, upd_ok, Op.htcAt] at h ⊢
  case append =>
    simp only [appendNode, Res.ok.injEq] at h; subst h
    unfold htcOf
    rw [get_append_default]
    split_ifs with hi
    · subst hi; simp [Node.default]
    · rfl
  all_goals
    obtain ⟨hlt, rfl⟩ := h
    unfold htcOf
    rw [get_modify]
    split_ifs with hi
    · subst hi; rw [List.getElem?_eq_getElem hlt]; rfl
    · rfl

theorem exec_c {minR : K} (i : Nat) (net net' : Network K) (op : Op K) (h : op.exec minR net = .ok net') :
    cOf net' i = Op.cAt i (.ok op) (cOf net i) := by
  cases op <;> simp only [Op.exec, setC, setHF, addHF, setHTC, addHTC, setR_eq, upd_ok, Op.cAt] at h ⊢
  case append =>
    simp only [appendNode, Res.ok.injEq] at h; subst h
    unfold cOf
    rw [get_append_default]
    split_ifs with hi
    · subst hi; simp [Node.default]
    · rfl
  all_goals
    obtain ⟨hlt, rfl⟩ := h
    unfold cOf
    rw [get_modify]
    split_ifs with hi
    · subst hi; rw [List.getElem?_eq_getElem hlt]; rfl
    · rfl

theorem exec_g {minR : K} (a b : Nat) (net net' : Network K) (op : Op K) (h : op.exec minR net = .ok net') :
    conductance net' a b = conductance net a b + Op.gAt minR a b (.ok op) := by
  cases op <;> simp only [Op.exec, setC, setHF, addHF, setHTC, addHTC, setR_eq, Op.gAt] at h ⊢
  case r i j v =>
    exact conductance_upd h a b
  case append =>
    simp only [appendNode, Res.ok.injEq] at h; subst h
    unfold conductance
    rw [get_append_default, add_zero]
    split_ifs with hi
    · rw [hi]; simp [Node.default, UMap.find?_nil]
    · rfl
  all_goals
    rw [upd_ok] at h
    obtain ⟨hlt, rfl⟩ := h
    unfold conductance
    rw [get_modify, add_zero]
    split_ifs with hi
    · rw [← hi, List.getElem?_eq_getElem hlt]; rfl
    · rfl

/-- the heat flow, transfer coefficient, capacity and conductances after a list of calls -/
theorem run_values {minR : K} {l : List (Res (Op K))} {net net' : Network K} (h : run minR net l = .ok net') :
    (∀ i, hfOf net' i = l.foldl (fun b o => Op.hfAt i o b) (hfOf net i)) ∧
    (∀ i, htcOf net' i = l.foldl (fun b o => Op.htcAt i o b) (htcOf net i)) ∧
    (∀ i, cOf net' i = l.foldl (fun b o => Op.cAt i o b) (cOf net i)) ∧
    (∀ a b, conductance net' a b = conductance net a b + (l.map (Op.gAt minR a b)).sum) := by
  refine ⟨fun i => run_fold (fun n => hfOf n i) (fun o b => Op.hfAt i o b) (exec_hf i) l h,
    fun i => run_fold (fun n => htcOf n i) (fun o b => Op.htcAt i o b) (exec_htc i) l h,
    fun i => run_fold (fun n => cOf n i) (fun o b => Op.cAt i o b) (exec_c i) l h, fun a b => ?_⟩
  rw [run_fold (fun n => conductance n a b) (fun o g => g + Op.gAt minR a b o) (exec_g a b) l h]
  clear h
  generalize conductance net a b = g
  induction l generalizing g with
  | nil => simp
  | cons o l ih => rw [List.foldl_cons, ih, List.map_cons, List.sum_cons, add_assoc]

/-- resistances stay stored once and positive -/
theorem run_stored [IsStrictOrderedRing K] {minR : K} (hm : 0 < minR) (l : List (Res (Op K))) :
    ∀ {net net' : Network K}, run minR net l = .ok net' → StoredOnce net → StoredOnce net' := by
  induction l with
  | nil => intro net net' h; simp [run] at h; simp [h]
  | cons o l ih =>
    intro net net' h hs
    rcases o with op | _ | _
    · rw [run] at h
      cases h1 : op.exec minR net with
      | ub => rw [h1] at h; simp at h
      | exn => rw [h1] at h; simp at h
      | ok n1 =>
        rw [h1, Res.bind_ok] at h
        refine ih h ?_
        cases op
        case r a b v =>
          have : setRs minR net [(a, b, v)] = .ok n1 := by
            simp only [Op.exec] at h1
            simp [setRs, h1]
          exact (c28_parallel hm _ this).2.1 hs
        case append =>
          simp only [Op.exec, appendNode, Res.ok.injEq] at h1
          subst h1
          intro i n hn
          rw [get_append_default] at hn
          split_ifs at hn with hi
          · injection hn with hn; subst hn; simp [Node.default, UMap.WF, UMap.keys]
          · exact hs i n hn
        all_goals
          simp only [Op.exec, setC, setHF, addHF, setHTC, addHTC, upd_ok] at h1
          obtain ⟨hlt, rfl⟩ := h1
          intro k n hn
          rw [get_modify] at hn
          split_ifs at hn with hi
          · subst hi
            rw [List.getElem?_eq_getElem hlt] at hn
            simp only [Option.map_some, Option.some.injEq] at hn
            subst hn
            have := hs _ _ (List.getElem?_eq_getElem hlt)
            exact this
          · exact hs k n hn
    · simp [run] at h
    · simp [run] at h

/-- the second node of a resistor -/
def Op.upper : Res (Op K) → Nat
  | .ok (.r a b _) => max a b
  | _ => 0

omit [LinearOrder K] in
theorem mem_setNs_key {ns : List (Nat × K)} {j : Nat} {r : K} {e : Nat × K} (he : e ∈ setNs ns j r) :
    e.1 = j ∨ ∃ e' ∈ ns, e'.1 = e.1 := by
  unfold setNs at he
  cases hf : UMap.find? ns j with
  | some r0 =>
    rw [hf] at he
    simp only [List.mem_map] at he
    obtain ⟨e0, he0, rfl⟩ := he
    right
    refine ⟨e0, he0, ?_⟩
    split <;> rfl
  | none =>
    rw [hf] at he
    simp only at he
    unfold UMap.emplace at he
    split at he
    · exact .inr ⟨e, he, rfl⟩
    · simp only at he
      rcases List.mem_append.1 he with he | he
      · exact .inr ⟨e, he, rfl⟩
      · simp at he; subst he; exact .inl rfl

/-- all neighbours stay below a bound -/
theorem run_below {minR : K} (N : Nat) (l : List (Res (Op K))) (hl : ∀ o ∈ l, Op.upper o < N) :
    ∀ {net net' : Network K}, run minR net l = .ok net' →
    (∀ (i : Nat) (n : Node K), net[i]? = some n → ∀ e ∈ n.ns, e.1 < N) →
    ∀ (i : Nat) (n : Node K), net'[i]? = some n → ∀ e ∈ n.ns, e.1 < N := by
  induction l with
  | nil => intro net net' h; simp [run] at h; simp [h]
  | cons o l ih =>
    intro net net' h hs
    rcases o with op | _ | _
    · rw [run] at h
      cases h1 : op.exec minR net with
      | ub => rw [h1] at h; simp at h
      | exn => rw [h1] at h; simp at h
      | ok n1 =>
        rw [h1, Res.bind_ok] at h
        refine ih (fun o ho => hl o (by simp [ho])) h ?_
        cases op
        case r a b v =>
          have hu := hl _ (List.mem_cons_self ..)
          simp only [Op.upper] at hu
          simp only [Op.exec, setR_eq, upd_ok] at h1
          obtain ⟨hlt, rfl⟩ := h1
          intro k n hn e he
          rw [get_modify] at hn
          split_ifs at hn with hi
          · subst hi
            rw [List.getElem?_eq_getElem hlt] at hn
            simp only [Option.map_some, Option.some.injEq] at hn
            subst hn
            rcases mem_setNs_key he with h2 | ⟨e', he', h2⟩
            · omega
            · rw [← h2]; exact hs _ _ (List.getElem?_eq_getElem hlt) e' he'
          · exact hs k n hn e he
        case append =>
          simp only [Op.exec, appendNode, Res.ok.injEq] at h1
          subst h1
          intro i n hn
          rw [get_append_default] at hn
          split_ifs at hn with hi
          · injection hn with hn; subst hn; simp [Node.default]
          · exact hs i n hn
        all_goals
          simp only [Op.exec, setC, setHF, addHF, setHTC, addHTC, upd_ok] at h1
          obtain ⟨hlt, rfl⟩ := h1
          intro k n hn
          rw [get_modify] at hn
          split_ifs at hn with hi
          · subst hi
            rw [List.getElem?_eq_getElem hlt] at hn
            simp only [Option.map_some, Option.some.injEq] at hn
            subst hn
            have := hs _ _ (List.getElem?_eq_getElem hlt)
            exact this
          · exact hs k n hn
    · simp [run] at h
    · simp [run] at h

omit [LinearOrder K] in
theorem hfOf_new (n i : Nat) : hfOf (Network.new noScen n : Network K) i = 0 := by
  unfold hfOf Network.new
  by_cases h : i < n <;> simp [List.getElem?_replicate, h, Node.default]

omit [LinearOrder K] in
theorem htcOf_new (n i : Nat) : htcOf (Network.new noScen n : Network K) i = 0 := by
  unfold htcOf Network.new
  by_cases h : i < n <;> simp [List.getElem?_replicate, h, Node.default]

omit [LinearOrder K] in
theorem cOf_new (n i : Nat) : cOf (Network.new noScen n : Network K) i = 0 := by
  unfold cOf Network.new
  by_cases h : i < n <;> simp [List.getElem?_replicate, h, Node.default]

omit [LinearOrder K] in
theorem conductance_new (n a b : Nat) : conductance (Network.new noScen n : Network K) a b = 0 := by
  unfold conductance Network.new
  by_cases h : min a b < n <;> simp [List.getElem?_replicate, h, Node.default, UMap.find?_nil]

omit [LinearOrder K] in
theorem length_new (n : Nat) : (Network.new noScen n : Network K).length = n := by simp [Network.new]

end Ecad.Thermal
