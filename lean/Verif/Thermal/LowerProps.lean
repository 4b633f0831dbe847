import Verif.Thermal.ConvergePrismProps
/-!
Networks made by calls that agree but for smaller resistances (used by C138).
-/
namespace Ecad.Lower
open Ecad.Thermal Ecad.Response Ecad.Static Ecad.GridT Ecad.Converge

variable {K : Type} [Field K] [LinearOrder K]

/-- the second list of resistors is the first with resistances that are not larger -/
def LeNs (l l' : List (Nat × K)) : Prop := List.Forall₂ (fun e e' => e'.1 = e.1 ∧ 0 < e'.2 ∧ e'.2 ≤ e.2) l l'

/-- calls that set resistances or make nodes -/
def isR : Res (Op K) → Bool
  | .ok (.r ..) | .ok .append => true
  | _ => false

/-- the second call is the first, with a resistance that is not larger -/
def LeOp : Res (Op K) → Res (Op K) → Prop
  | .ok (.r i j v), .ok (.r i' j' v') => i = i' ∧ j = j' ∧ v' ≤ v
  | .ok .append, .ok .append => True
  | _, _ => False

/-- what a call does to resistors -/
def nsEff (minR : K) (o : Res (Op K)) (b : List (List (Nat × K))) : List (List (Nat × K)) :=
  match o with
  | .ok (.r i j v) => b.modify (min i j) fun l => setNs l (max i j) (max v minR)
  | .ok .append => b ++ [[]]
  | _ => b

omit [Field K] [LinearOrder K] in
theorem map_modify_ns (a : Network K) (i : Nat) (f : Node K → Node K) (g : List (Nat × K) → List (Nat × K))
    (h : ∀ n, (f n).ns = g n.ns) : (a.modify i f).map Node.ns = (a.map Node.ns).modify i g := by
  apply List.ext_getElem?
  intro k
  rw [List.getElem?_map, List.getElem?_modify, List.getElem?_modify, List.getElem?_map]
  cases a[k]? with
  | none => rfl
  | some n =>
    by_cases hk : i = k
    · simp [hk, h]
    · simp [hk]

omit [Field K] [LinearOrder K] in
theorem map_modify_ns_id (a : Network K) (i : Nat) (f : Node K → Node K) (h : ∀ n, (f n).ns = n.ns) : (a.modify i f).map Node.ns = a.map Node.ns := by
  rw [map_modify_ns a i f id h]
  apply List.ext_getElem?
  intro k
  rw [List.getElem?_modify]
  cases (a.map Node.ns)[k]? with
  | none => rfl
  | some n => simp

theorem exec_ns (minR : K) (a a' : Network K) (op : Op K) (ha : op.exec minR a = .ok a') : a'.map Node.ns = nsEff minR (.ok op) (a.map Node.ns) := by
  cases op <;> simp only [Op.exec, setC, setHF, addHF, setHTC, addHTC, setR_eq, upd_ok] at ha
  case append =>
    simp [appendNode] at ha
    subst ha
    simp [nsEff]
    rfl
  case r => obtain ⟨_, rfl⟩ := ha; exact map_modify_ns _ _ _ _ fun n => rfl
  all_goals obtain ⟨_, rfl⟩ := ha; exact map_modify_ns_id _ _ _ fun n => rfl

theorem fold_isR (minR : K) (l : List (Res (Op K))) : ∀ b, l.foldl (fun b o => nsEff minR o b) b = (l.filter isR).foldl (fun b o => nsEff minR o b) b := by
  induction l with
  | nil => intro b; rfl
  | cons o l ih =>
    intro b
    rw [List.foldl_cons, List.filter_cons]
    by_cases h : isR o = true
    · rw [if_pos h, List.foldl_cons, ih]
    · rw [if_neg h, ih]
      congr 1
      rcases o with op | _ | _
      · cases op <;> simp [isR] at h <;> rfl
      · rfl
      · rfl

variable [IsStrictOrderedRing K]

theorem parallel_le {a b a' b' : K} (ha' : 0 < a') (hb' : 0 < b') (ha : a' ≤ a) (hb : b' ≤ b) : 0 < 1 / (1 / a' + 1 / b') ∧ 1 / (1 / a' + 1 / b') ≤ 1 / (1 / a + 1 / b) := by
  have p1 : 0 < 1 / a' + 1 / b' := add_pos (one_div_pos.2 ha') (one_div_pos.2 hb')
  have p2 : 0 < 1 / a + 1 / b := add_pos (one_div_pos.2 (ha'.trans_le ha)) (one_div_pos.2 (hb'.trans_le hb))
  exact ⟨one_div_pos.2 p1, one_div_le_one_div_of_le p2 (add_le_add (one_div_le_one_div_of_le ha' ha) (one_div_le_one_div_of_le hb' hb))⟩

theorem find_le {l l' : List (Nat × K)} (h : LeNs l l') (j : Nat) : (UMap.find? l j).isSome = (UMap.find? l' j).isSome := by
  induction h with
  | nil => rfl
  | @cons e e' l l' he _ ih =>
    rw [UMap.find?_cons, UMap.find?_cons, he.1]
    split
    · rfl
    · exact ih

theorem setNs_le {l l' : List (Nat × K)} (h : LeNs l l') (j : Nat) {r r' : K} (h0 : 0 < r') (hr : r' ≤ r) : LeNs (setNs l j r) (setNs l' j r') := by
  have hf := find_le h j
  unfold setNs
  cases h1 : UMap.find? l j with
  | some v =>
    cases h2 : UMap.find? l' j with
    | none => rw [h1, h2] at hf; cases hf
    | some v' =>
      dsimp only
      unfold LeNs
      rw [List.forall₂_map_left_iff, List.forall₂_map_right_iff]
      refine h.imp fun e e' he => ?_
      rw [he.1]
      split_ifs
      · obtain ⟨q1, q2⟩ := parallel_le h0 he.2.1 hr he.2.2
        exact ⟨rfl, q1, q2⟩
      · exact ⟨he.1, he.2.1, he.2.2⟩
  | none =>
    cases h2 : UMap.find? l' j with
    | some v' => rw [h1, h2] at hf; cases hf
    | none =>
      dsimp only
      unfold UMap.emplace
      rw [← UMap.find?_isSome_eq_count, ← UMap.find?_isSome_eq_count, h1, h2]
      exact List.rel_append h (List.Forall₂.cons ⟨rfl, h0, hr⟩ List.Forall₂.nil)

theorem nsEff_le {minR : K} (hm : 0 < minR) {o o' : Res (Op K)} (ho : LeOp o o') {b b' : List (List (Nat × K))} (hb : List.Forall₂ LeNs b b') :
    List.Forall₂ LeNs (nsEff minR o b) (nsEff minR o' b') := by
  have hop : ∃ op op', o = .ok op ∧ o' = .ok op' := by
    rcases o with op | _ | _
    · rcases o' with op' | _ | _
      · exact ⟨op, op', rfl, rfl⟩
      · cases op <;> exact ho.elim
      · cases op <;> exact ho.elim
    · exact ho.elim
    · exact ho.elim
  obtain ⟨op, op', rfl, rfl⟩ := hop
  cases op <;> cases op' <;> try exact ho.elim
  case r.r =>
    obtain ⟨rfl, rfl, hv⟩ := ho
    unfold nsEff
    dsimp only
    rw [List.forall₂_iff_get] at hb ⊢
    refine ⟨by simpa using hb.1, fun k h1 h2 => ?_⟩
    rw [List.length_modify] at h1 h2
    have := hb.2 k h1 h2
    simp only [List.get_eq_getElem, List.getElem_modify] at this ⊢
    split_ifs
    · exact setNs_le this _ (hm.trans_le (le_max_right _ _)) (max_le_max hv (le_refl _))
    · exact this
  case append.append =>
    exact List.rel_append hb (List.Forall₂.cons List.Forall₂.nil List.Forall₂.nil)

theorem fold_le {minR : K} (hm : 0 < minR) {l l' : List (Res (Op K))} (h : List.Forall₂ LeOp l l') : ∀ {b b' : List (List (Nat × K))}, List.Forall₂ LeNs b b' →
    List.Forall₂ LeNs (l.foldl (fun b o => nsEff minR o b) b) (l'.foldl (fun b o => nsEff minR o b) b') := by
  induction h with
  | nil => intro b b' hb; exact hb
  | cons ho _ ih => intro b b' hb; exact ih (nsEff_le hm ho hb)

/-- calls that agree but for smaller resistances lead to smaller resistances -/
theorem run_le {minR : K} (hm : 0 < minR) {l l' : List (Res (Op K))} (h : List.Forall₂ LeOp (l.filter isR) (l'.filter isR)) {n : Nat} {a' b' : Network K}
    (ha : run minR (Network.new noScen n) l = .ok a') (hb : run minR (Network.new noScen n) l' = .ok b') :
    List.Forall₂ LeNs (a'.map Node.ns) (b'.map Node.ns) := by
  rw [run_fold (fun net => net.map Node.ns) (nsEff minR) (fun net net' op h => exec_ns minR net net' op h) l ha,
    run_fold (fun net => net.map Node.ns) (nsEff minR) (fun net net' op h => exec_ns minR net net' op h) l' hb, fold_isR, fold_isR minR l']
  refine fold_le hm h ?_
  rw [List.forall₂_same]
  intro x hx
  unfold Network.new at hx
  rw [List.map_replicate, List.mem_replicate] at hx
  rw [hx.2]
  exact List.Forall₂.nil

omit [IsStrictOrderedRing K] in
theorem leNs_antisymm {l l' : List (Nat × K)} (h : LeNs l l') (h' : LeNs l' l) : l = l' := by
  induction h with
  | nil => rfl
  | cons he _ ih =>
    cases h' with
    | cons he' ht' => rw [ih ht', Prod.ext he.1.symm (le_antisymm he'.2.2 he.2.2)]

omit [IsStrictOrderedRing K] in
theorem le_antisymm_ns {l l' : List (List (Nat × K))} (h : List.Forall₂ LeNs l l') (h' : List.Forall₂ LeNs l' l) : l = l' := by
  induction h with
  | nil => rfl
  | cons he _ ih =>
    cases h' with
    | cons he' ht' => rw [ih ht', leNs_antisymm he he']

omit [IsStrictOrderedRing K] in
theorem at_ns {a b : Network K} (h : List.Forall₂ LeNs (a.map Node.ns) (b.map Node.ns)) :
    a.length = b.length ∧ ∀ (i : Nat) (n n' : Node K), a[i]? = some n → b[i]? = some n' → LeNs n.ns n'.ns := by
  refine ⟨by simpa using h.length_eq, fun i n n' hi hi' => ?_⟩
  rw [List.forall₂_iff_get] at h
  obtain ⟨q1, e1⟩ := List.getElem?_eq_some_iff.1 hi
  obtain ⟨q2, e2⟩ := List.getElem?_eq_some_iff.1 hi'
  have := h.2 i (by simpa using q1) (by simpa using q2)
  simp only [List.get_eq_getElem, List.getElem_map, e1, e2] at this
  exact this

omit [IsStrictOrderedRing K] in
/-- networks each of whose resistances are not larger than those of the other have the same -/
theorem ns_eq {a b : Network K} (h : List.Forall₂ LeNs (a.map Node.ns) (b.map Node.ns)) (h' : List.Forall₂ LeNs (b.map Node.ns) (a.map Node.ns)) :
    a.length = b.length ∧ ∀ (i : Nat) (n n' : Node K), a[i]? = some n → b[i]? = some n' → n.ns = n'.ns :=
  ⟨(at_ns h).1, fun i n n' hi hi' => leNs_antisymm ((at_ns h).2 i n n' hi hi') ((at_ns h').2 i n' n hi' hi)⟩

end Ecad.Lower
