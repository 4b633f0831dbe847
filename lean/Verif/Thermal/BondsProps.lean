import Verif.Thermal.SetRProps
import Verif.Thermal.BondsModel
import Mathlib.Algebra.BigOperators.Group.Finset.Basic
import Mathlib.Algebra.BigOperators.Fin
/-!
C51.
-/
namespace Ecad.Thermal

open Finset

/-- the bin of a node that is to be moved -/
def RedArgs.moved (a : RedArgs) (n : Node ℚ) : Option Nat :=
  match n.t with
  | none => none
  | some t => if a.minT ≤ t ∧ t ≤ a.maxT then a.bin t else none

/-- sum of the heat transfer coefficients -/
def totalHTC (net : Network ℚ) : ℚ := (net.map Node.htc).sum

/-- heat transfer of the nodes of a bin among the first `k` -/
def binHTC (a : RedArgs) (net : Network ℚ) (k id : Nat) : ℚ :=
  ((net.take k).map fun n => if a.moved n = some id then n.htc else 0).sum

theorem total_modify (net : Network ℚ) (i : Nat) (f : Node ℚ → Node ℚ) : ∀ n, net[i]? = some n →
    totalHTC (net.modify i f) = totalHTC net - n.htc + (f n).htc := by
  induction net generalizing i with
  | nil => intro n h; simp at h
  | cons m net ih =>
    intro n h
    cases i with
    | zero =>
      simp at h
      subst h
      simp [totalHTC, List.modify]
      ring
    | succ i =>
      have := ih i n (by simpa using h)
      simp only [totalHTC, List.modify_succ_cons, List.map_cons, List.sum_cons] at this ⊢
      rw [this]
      ring

/-- the node moved to `nid` -/
def movedNode (a : RedArgs) (n : Node ℚ) (nid : Nat) : Node ℚ := { n with htc := 0, ns := n.ns ++ [(nid, a.fakeR)] }

theorem moveTo_ok (a : RedArgs) (hR : a.minR ≤ a.fakeR) (net : Network ℚ) (nid i : Nat) (ni mi : Node ℚ)
    (hlt : i < nid) (hi : net[i]? = some ni) (hn : net[nid]? = some mi) (hk : nid ∉ UMap.keys ni.ns) :
    ∃ net', moveTo a net nid i ni.htc = .ok net' ∧ net'.length = net.length ∧
      totalHTC net' = totalHTC net ∧
      ∀ j : Nat, net'[j]? = if j = i then some (movedNode a ni nid)
        else if j = nid then some { mi with c := a.fakeC, htc := mi.htc + ni.htc } else net[j]? := by
  have hil := (List.getElem?_eq_some_iff.1 hi).1
  have hnl := (List.getElem?_eq_some_iff.1 hn).1
  have hf : UMap.find? ni.ns nid = none := (UMap.find?_eq_none_iff _ _).2 hk
  have hc : UMap.count ni.ns nid = false := (UMap.count_eq_false_iff _ _).2 hk
  have hset : setNs ni.ns nid (max a.fakeR a.minR) = ni.ns ++ [(nid, a.fakeR)] := by
    unfold setNs
    rw [hf, max_eq_left hR]
    simp only [UMap.emplace, hc, Bool.false_eq_true, if_false]
  have hmin : min nid i = i := by omega
  have hmax : max nid i = nid := by omega
  let n1 := net.modify nid fun n => { n with c := a.fakeC }
  let n2 := n1.modify i fun n => { n with ns := setNs n.ns nid (max a.fakeR a.minR) }
  let n3 := n2.modify nid fun n => { n with htc := n.htc + ni.htc }
  let n4 := n3.modify i fun n => { n with htc := 0 }
  have l1 : n1.length = net.length := List.length_modify ..
  have l2 : n2.length = net.length := by rw [← l1]; exact List.length_modify ..
  have l3 : n3.length = net.length := by rw [← l2]; exact List.length_modify ..
  have l4 : n4.length = net.length := by rw [← l3]; exact List.length_modify ..
  have hne : nid ≠ i := by omega
  have g1i : n1[i]? = some ni := by show (net.modify nid _)[i]? = _; rw [get_modify, if_neg hne, hi]
  have g1n : n1[nid]? = some { mi with c := a.fakeC } := by
    show (net.modify nid _)[nid]? = _; rw [get_modify, if_pos rfl, hn]; rfl
  have g2i : n2[i]? = some { ni with ns := ni.ns ++ [(nid, a.fakeR)] } := by
    show (n1.modify i _)[i]? = _; rw [get_modify, if_pos rfl, g1i, ← hset]; rfl
  have g2n : n2[nid]? = some { mi with c := a.fakeC } := by
    show (n1.modify i _)[nid]? = _; rw [get_modify, if_neg hne.symm, g1n]
  have g3i : n3[i]? = some { ni with ns := ni.ns ++ [(nid, a.fakeR)] } := by
    show (n2.modify nid _)[i]? = _; rw [get_modify, if_neg hne, g2i]
  have g3n : n3[nid]? = some { mi with c := a.fakeC, htc := mi.htc + ni.htc } := by
    show (n2.modify nid _)[nid]? = _; rw [get_modify, if_pos rfl, g2n]; rfl
  refine ⟨n4, ?_, l4, ?_, ?_⟩
  · unfold moveTo
    have e1 : setC net nid a.fakeC = .ok n1 := by unfold setC upd; rw [if_pos hnl]
    have e2 : setR a.minR n1 nid i a.fakeR = .ok n2 := by
      rw [setR_eq, hmin, hmax]; unfold upd; rw [if_pos (by omega)]
    have e3 : addHTC n2 nid ni.htc = .ok n3 := by unfold addHTC upd; rw [if_pos (by omega)]
    have e4 : setHTC n3 i 0 = .ok n4 := by unfold setHTC upd; rw [if_pos (by omega)]
    rw [e1, Res.bind_ok, e2, Res.bind_ok, e3, Res.bind_ok, e4]
  · have t1 := total_modify net nid (fun n => { n with c := a.fakeC }) _ hn
    have t2 := total_modify n1 i (fun n => { n with ns := setNs n.ns nid (max a.fakeR a.minR) }) _ g1i
    have t3 := total_modify n2 nid (fun n => { n with htc := n.htc + ni.htc }) _ g2n
    have t4 := total_modify n3 i (fun n => { n with htc := 0 }) _ g3i
    show totalHTC n4 = _
    have t4' : totalHTC n4 = totalHTC n3 - ni.htc + 0 := t4
    have t3' : totalHTC n3 = totalHTC n2 - mi.htc + (mi.htc + ni.htc) := t3
    have t2' : totalHTC n2 = totalHTC n1 - ni.htc + ni.htc := t2
    have t1' : totalHTC n1 = totalHTC net - mi.htc + mi.htc := t1
    rw [t4', t3', t2', t1']
    ring
  · intro j
    by_cases hji : j = i
    · subst hji
      rw [if_pos rfl]
      show (n3.modify j _)[j]? = _
      rw [get_modify, if_pos rfl, g3i]
      rfl
    · rw [if_neg hji]
      show (n3.modify i _)[j]? = _
      rw [get_modify, if_neg (Ne.symm hji)]
      by_cases hjn : j = nid
      · subst hjn
        rw [if_pos rfl, g3n]
      · rw [if_neg hjn]
        show (n2.modify nid _)[j]? = _
        rw [get_modify, if_neg (Ne.symm hjn)]
        show (n1.modify i _)[j]? = _
        rw [get_modify, if_neg (Ne.symm hji)]
        show (net.modify nid _)[j]? = _
        rw [get_modify, if_neg (Ne.symm hjn)]

/-- Everything known after the first `k` nodes: `net0` is the network before, `m` the table from bins to
merged nodes. -/
structure RedInv (a : RedArgs) (net0 : Network ℚ) (k : Nat) (net : Network ℚ) (m : List (Nat × Nat)) : Prop where
  len : net.length = net0.length + m.length
  wf : UMap.WF m
  vals : ∀ (j : Nat) (e : Nat × Nat), m[j]? = some e → e.2 = net0.length + j
  keys : ∀ id, id ∈ UMap.keys m ↔ ∃ (i : Nat) (n : Node ℚ), i < k ∧ net0[i]? = some n ∧ a.moved n = some id
  total : totalHTC net = totalHTC net0
  old : ∀ (i : Nat) (n : Node ℚ), net0[i]? = some n →
    net[i]? = some (if i < k then
      match a.moved n with
      | none => n
      | some id => match UMap.find? m id with
        | some nid => movedNode a n nid
        | none => n
      else n)
  new : ∀ e ∈ m, net[e.2]? = some { (Node.default a.scen : Node ℚ) with c := a.fakeC, htc := binHTC a net0 k e.1 }

theorem binHTC_succ (a : RedArgs) (net : Network ℚ) (k id : Nat) (n : Node ℚ) (h : net[k]? = some n) :
    binHTC a net (k + 1) id = binHTC a net k id + if a.moved n = some id then n.htc else 0 := by
  unfold binHTC
  rw [List.take_add_one, h]
  simp

theorem vals_inj {net0 : Network ℚ} {m : List (Nat × Nat)}
    (h : ∀ (j : Nat) (e : Nat × Nat), m[j]? = some e → e.2 = net0.length + j) {e e' : Nat × Nat}
    (h1 : e ∈ m) (h2 : e' ∈ m) (he : e.2 = e'.2) : e = e' := by
  obtain ⟨j, hj⟩ := List.getElem?_of_mem h1
  obtain ⟨j', hj'⟩ := List.getElem?_of_mem h2
  have a1 := h j e hj
  have a2 := h j' e' hj'
  have : j = j' := by omega
  subst this
  rw [hj] at hj'
  injection hj'

theorem redStep_inv (a : RedArgs) (hR : a.minR ≤ a.fakeR) (cap : Nat) (net0 : Network ℚ)
    (hr : ∀ (i : Nat) (n : Node ℚ), net0[i]? = some n → ∀ e ∈ n.ns, e.1 < net0.length)
    (k : Nat) (hk : k < net0.length) (net : Network ℚ) (m : List (Nat × Nat)) (hinv : RedInv a net0 k net m)
    (s' : Network ℚ × List (Nat × Nat)) (h : redStep a cap (net, m) k = .ok s') :
    RedInv a net0 (k + 1) s'.1 s'.2 := by
  obtain ⟨n, hn⟩ : ∃ n, net0[k]? = some n := ⟨_, List.getElem?_eq_getElem hk⟩
  have hkn : net[k]? = some n := by
    have := hinv.old k n hn
    rw [if_neg (lt_irrefl k)] at this
    exact this
  -- nothing to move
  have hskip : a.moved n = none → s' = (net, m) → RedInv a net0 (k + 1) s'.1 s'.2 := by
    intro hm hs
    subst hs
    refine ⟨hinv.len, hinv.wf, hinv.vals, ?_, hinv.total, ?_, ?_⟩
    · intro id
      rw [hinv.keys]
      constructor
      · rintro ⟨i, n', h1, h2⟩; exact ⟨i, n', by omega, h2⟩
      · rintro ⟨i, n', h1, h2, h3⟩
        refine ⟨i, n', ?_, h2, h3⟩
        by_contra hc
        have : i = k := by omega
        subst this
        rw [hn] at h2
        injection h2 with h2
        subst h2
        rw [hm] at h3
        simp at h3
    · intro i n' hi
      have := hinv.old i n' hi
      by_cases hik : i = k
      · subst hik
        rw [hn] at hi
        injection hi with hi
        subst hi
        simp only [hm, if_pos (Nat.lt_succ_self i)]
        exact hkn
      · rw [this]
        by_cases h1 : i < k
        · rw [if_pos h1, if_pos (by omega)]
        · rw [if_neg h1, if_neg (by omega)]
    · intro e he
      rw [hinv.new e he, binHTC_succ a net0 k e.1 n hn, hm]
      simp
  unfold redStep at h
  simp only [hkn] at h
  cases ht : n.t with
  | none =>
    rw [ht] at h
    simp only at h
    injection h with h
    exact hskip (by simp [RedArgs.moved, ht]) h.symm
  | some t =>
    rw [ht] at h
    simp only at h
    by_cases hrange : t < a.minT ∨ a.maxT < t
    · rw [if_pos hrange] at h
      injection h with h
      refine hskip ?_ h.symm
      simp only [RedArgs.moved, ht]
      rw [if_neg]
      rintro ⟨h1, h2⟩
      rcases hrange with h3 | h3 <;> linarith
    · rw [if_neg hrange] at h
      push Not at hrange
      cases hb : a.bin t with
      | none => rw [hb] at h; simp at h
      | some id =>
        rw [hb] at h
        simp only at h
        have hmv : a.moved n = some id := by
          simp only [RedArgs.moved, ht]
          rw [if_pos hrange, hb]
        -- the common part: moving to an entry `nid` of a table satisfying the invariant before the move
        have hmove : ∀ (net1 : Network ℚ) (m1 : List (Nat × Nat)) (nid : Nat),
            net1.length = net0.length + m1.length → UMap.WF m1 →
            (∀ (j : Nat) (e : Nat × Nat), m1[j]? = some e → e.2 = net0.length + j) →
            (∀ id', id' ∈ UMap.keys m1 ↔ id' = id ∨ id' ∈ UMap.keys m) →
            (∀ id' ∈ UMap.keys m, UMap.find? m1 id' = UMap.find? m id') →
            totalHTC net1 = totalHTC net0 →
            (∀ i < net0.length, net1[i]? = net[i]?) →
            (∀ e ∈ m1, net1[e.2]? = some { (Node.default a.scen : Node ℚ) with
              c := if e ∈ m then a.fakeC else 0, htc := binHTC a net0 k e.1 }) →
            UMap.find? m1 id = some nid →
            ∀ net2, moveTo a net1 nid k n.htc = .ok net2 → RedInv a net0 (k + 1) net2 m1 := by
          intro net1 m1 nid q1 q2 q3 q4 q5 q6 q7 q8 q9 net2 hmv2
          have hmem : (id, nid) ∈ m1 := UMap.find?_mem q9
          obtain ⟨j, hj⟩ := List.getElem?_of_mem hmem
          have hnid := q3 j _ hj
          have hjl := (List.getElem?_eq_some_iff.1 hj).1
          simp only at hnid
          have hk1 : net1[k]? = some n := by rw [q7 k hk, hkn]
          have hn1 := q8 _ hmem
          obtain ⟨net3, r1, r2, r3, r4⟩ := moveTo_ok a hR net1 nid k n _ (by omega) hk1 hn1 (by
            intro hc
            unfold UMap.keys at hc
            rw [List.mem_map] at hc
            obtain ⟨e, he, heq⟩ := hc
            have := hr k n hn e he
            omega)
          rw [r1] at hmv2
          injection hmv2 with hmv2
          subst hmv2
          refine ⟨by rw [r2, q1], q2, q3, ?_, by rw [r3, q6], ?_, ?_⟩
          · intro id'
            rw [q4, hinv.keys]
            constructor
            · rintro (rfl | ⟨i, n', h1, h2⟩)
              · exact ⟨k, n, by omega, hn, hmv⟩
              · exact ⟨i, n', by omega, h2⟩
            · rintro ⟨i, n', h1, h2, h3⟩
              by_cases hik : i = k
              · subst hik
                rw [hn] at h2
                injection h2 with h2
                subst h2
                rw [hmv] at h3
                injection h3 with h3
                exact Or.inl h3.symm
              · exact Or.inr ⟨i, n', by omega, h2, h3⟩
          · intro i n' hi
            have hil := (List.getElem?_eq_some_iff.1 hi).1
            rw [r4 i]
            by_cases hik : i = k
            · subst hik
              rw [hn] at hi
              injection hi with hi
              subst hi
              rw [if_pos rfl, if_pos (Nat.lt_succ_self i)]
              simp only [hmv, q9]
            · rw [if_neg hik, if_neg (by omega), q7 i hil, hinv.old i n' hi]
              by_cases h1 : i < k
              · rw [if_pos h1, if_pos (by omega)]
                cases hm' : a.moved n' with
                | none => rfl
                | some id' =>
                  simp only
                  rw [q5 id' ((hinv.keys id').2 ⟨i, n', h1, hi, hm'⟩)]
              · rw [if_neg h1, if_neg (by omega)]
          · intro e he
            obtain ⟨j', hj'⟩ := List.getElem?_of_mem he
            have he2 := q3 j' e hj'
            rw [r4 e.2, if_neg (by omega)]
            rw [binHTC_succ a net0 k e.1 n hn, hmv]
            by_cases hen : e.2 = nid
            · have : e = (id, nid) := vals_inj q3 he hmem hen
              subst this
              simp
            · rw [if_neg hen, q8 e he]
              have hne : e.1 ≠ id := by
                intro hc
                apply hen
                have h1 : UMap.find? m1 e.1 = some e.2 := (UMap.find?_eq_some_iff q2 _ _).2 he
                rw [hc, q9] at h1
                injection h1 with h1
                exact h1.symm
              have hem : e ∈ m := by
                have h1 : UMap.find? m1 e.1 = some e.2 := (UMap.find?_eq_some_iff q2 _ _).2 he
                have h2 : e.1 ∈ UMap.keys m1 := List.mem_map.2 ⟨e, he, rfl⟩
                rcases (q4 e.1).1 h2 with h3 | h3
                · exact absurd h3 hne
                · rw [q5 e.1 h3] at h1
                  exact UMap.find?_mem h1
              rw [if_pos hem, if_neg (by simpa using Ne.symm hne), add_zero]
        cases hfind : UMap.find? m id with
        | some nid =>
          rw [hfind] at h
          simp only at h
          cases hmt : moveTo a net nid k n.htc with
          | ub => rw [hmt] at h; simp at h
          | exn => rw [hmt] at h; simp at h
          | ok net2 =>
            rw [hmt, Res.bind_ok] at h
            injection h with h
            subst h
            have hidm : id ∈ UMap.keys m := (UMap.find?_isSome_iff m id).1 (by rw [hfind]; rfl)
            refine hmove net m nid hinv.len hinv.wf hinv.vals ?_ (fun _ _ => rfl) hinv.total (fun _ _ => rfl) ?_
              hfind net2 hmt
            · intro id'
              constructor
              · intro h; exact Or.inr h
              · rintro (rfl | h)
                · exact hidm
                · exact h
            · intro e he
              rw [hinv.new e he, if_pos he]
        | none =>
          rw [hfind] at h
          simp only at h
          by_cases hcap : net.length < cap
          · rw [if_pos hcap] at h
            cases hmt : moveTo a (appendNode a.scen net none).1 (appendNode a.scen net none).2 k n.htc with
            | ub => rw [hmt] at h; simp at h
            | exn => rw [hmt] at h; simp at h
            | ok net2 =>
              rw [hmt, Res.bind_ok] at h
              injection h with h
              subst h
              have hidm : id ∉ UMap.keys m := (UMap.find?_eq_none_iff m id).1 hfind
              have hcount : UMap.count m id = false := (UMap.count_eq_false_iff m id).2 hidm
              have hm1 : (UMap.emplace m id net.length).1 = m ++ [(id, net.length)] := by
                simp [UMap.emplace, hcount]
              simp only [appendNode] at hmt ⊢
              rw [hm1]
              refine hmove _ (m ++ [(id, net.length)]) net.length ?_ ?_ ?_ ?_ ?_ ?_ ?_ ?_ ?_ net2 hmt
              · simp only [List.length_append, List.length_singleton, hinv.len]; omega
              · rw [← hm1]; exact UMap.WF_emplace hinv.wf _ _
              · intro j e hj
                by_cases hjl : j < m.length
                · rw [List.getElem?_append_left hjl] at hj
                  exact hinv.vals j e hj
                · have : j = m.length := by
                    have := (List.getElem?_eq_some_iff.1 hj).1
                    simp at this
                    omega
                  subst this
                  simp at hj
                  subst hj
                  exact hinv.len
              · intro id'
                simp only [UMap.keys, List.map_append, List.map_cons, List.map_nil, List.mem_append,
                  List.mem_singleton]
                tauto
              · intro id' hid'
                rw [UMap.find?_append, UMap.find?_cons, UMap.find?_nil]
                have : UMap.find? m id' ≠ none := by
                  intro hc
                  exact (UMap.find?_eq_none_iff m id').1 hc hid'
                cases hf : UMap.find? m id' with
                | none => exact absurd hf this
                | some v => simp
              · simp only [totalHTC, List.map_append, List.sum_append, List.map_cons, List.map_nil,
                  List.sum_cons, List.sum_nil, Node.default, add_zero]
                exact hinv.total
              · intro i hi
                rw [List.getElem?_append_left (by rw [hinv.len]; omega)]
              · intro e he
                rcases List.mem_append.1 he with he | he
                · obtain ⟨j, hj⟩ := List.getElem?_of_mem he
                  have h1 := hinv.vals j e hj
                  have h2 := (List.getElem?_eq_some_iff.1 hj).1
                  rw [List.getElem?_append_left (by rw [hinv.len]; omega), hinv.new e he, if_pos he]
                · simp at he
                  subst he
                  have hnm : (id, net.length) ∉ m := fun hc => hidm (List.mem_map.2 ⟨_, hc, rfl⟩)
                  have hz : binHTC a net0 k id = 0 := by
                    unfold binHTC
                    apply List.sum_eq_zero
                    intro x hx
                    rw [List.mem_map] at hx
                    obtain ⟨n', hn', rfl⟩ := hx
                    obtain ⟨i, hi⟩ := List.getElem?_of_mem hn'
                    rw [List.getElem?_take] at hi
                    split at hi
                    · rename_i hik
                      rw [if_neg]
                      intro hc
                      exact hidm ((hinv.keys id).2 ⟨i, n', hik, hi, hc⟩)
                    · simp at hi
                  simp only [if_neg hnm, hz]
                  rw [List.getElem?_append_right (le_refl _)]
                  simp [Node.default]
              · rw [UMap.find?_append, hfind, UMap.find?_cons]
                simp
          · rw [if_neg hcap] at h
            simp at h

theorem redLoop_inv (a : RedArgs) (hR : a.minR ≤ a.fakeR) (cap : Nat) (net0 : Network ℚ)
    (hr : ∀ (i : Nat) (n : Node ℚ), net0[i]? = some n → ∀ e ∈ n.ns, e.1 < net0.length) (r : Nat) :
    ∀ (k : Nat) (s s' : Network ℚ × List (Nat × Nat)), k + r = net0.length → RedInv a net0 k s.1 s.2 →
      redLoop a cap k r s = .ok s' → RedInv a net0 net0.length s'.1 s'.2 := by
  induction r with
  | zero =>
    intro k s s' hk hinv h
    simp [redLoop] at h
    subst h
    have : k = net0.length := by omega
    rw [← this]
    exact hinv
  | succ r ih =>
    intro k s s' hk hinv h
    rw [redLoop] at h
    cases hs : redStep a cap s k with
    | ub => rw [hs] at h; simp at h
    | exn => rw [hs] at h; simp at h
    | ok s1 =>
      rw [hs, Res.bind_ok] at h
      exact ih (k + 1) s1 s' (by omega)
        (redStep_inv a hR cap net0 hr k (by omega) s.1 s.2 hinv s1 hs) h

theorem redInv_start (a : RedArgs) (net0 : Network ℚ) : RedInv a net0 0 net0 [] := by
  refine ⟨by simp, by simp [UMap.WF, UMap.keys], by intro j e h; simp at h, ?_, rfl, ?_, by simp⟩
  · intro id
    simp [UMap.keys]
  · intro i n h
    rw [if_neg (by omega)]
    exact h

/-- **C51**, whenever the node vector has room for the merged nodes: the total heat transfer is kept;
every node outside the temperature range is unchanged; every node inside it loses its heat
transfer and gets exactly one new resistor, to the merged node of its bin; nodes of the same bin
and only those share a merged node; and a merged node has the heat transfer of its bin.
(The resistor is added to every node of the range, also to those without any heat transfer.) -/
theorem c51_reduce_partial (a : RedArgs) (hR : a.minR ≤ a.fakeR) (cap : Nat) (net net' : Network ℚ)
    (m : List (Nat × Nat))
    (hr : ∀ (i : Nat) (n : Node ℚ), net[i]? = some n → ∀ e ∈ n.ns, e.1 < net.length)
    (h : reduceBonds a cap net = .ok (net', m)) :
    totalHTC net' = totalHTC net ∧
    (∀ (i : Nat) (n : Node ℚ), net[i]? = some n → a.moved n = none → net'[i]? = some n) ∧
    (∃ target : Nat → Nat, Function.Injective target ∧
      (∀ (i : Nat) (n : Node ℚ) (id : Nat), net[i]? = some n → a.moved n = some id →
        net.length ≤ target id ∧
        net'[i]? = some { n with htc := 0, ns := n.ns ++ [(target id, a.fakeR)] } ∧
        net'[target id]? = some ⟨a.scen, none, a.fakeC, 0,
          (net.map fun k => if a.moved k = some id then k.htc else 0).sum, []⟩)) := by
  have hinv := redLoop_inv a hR cap net hr net.length 0 (net, []) (net', m) (by omega) (redInv_start a net) h
  refine ⟨hinv.total, ?_, ?_⟩
  · intro i n hi hm
    have hil := (List.getElem?_eq_some_iff.1 hi).1
    have := hinv.old i n hi
    rw [if_pos hil, hm] at this
    exact this
  · -- the table gives the target; bins not in it get unused numbers
    let target : Nat → Nat := fun id => match UMap.find? m id with
      | some nid => nid
      | none => net'.length + id
    have hbound : ∀ e ∈ m, net.length ≤ e.2 ∧ e.2 < net'.length := by
      intro e he
      obtain ⟨j, hj⟩ := List.getElem?_of_mem he
      have h1 := hinv.vals j e hj
      have h2 := (List.getElem?_eq_some_iff.1 hj).1
      have h3 := hinv.len
      simp only at h3
      omega
    refine ⟨target, ?_, ?_⟩
    · intro x y hxy
      simp only [target] at hxy
      cases hx : UMap.find? m x with
      | some nx =>
        cases hy : UMap.find? m y with
        | some ny =>
          rw [hx, hy] at hxy
          have := vals_inj hinv.vals (UMap.find?_mem hx) (UMap.find?_mem hy) hxy
          injection this
        | none =>
          rw [hx, hy] at hxy
          have := (hbound _ (UMap.find?_mem hx)).2
          simp only at this hxy
          omega
      | none =>
        cases hy : UMap.find? m y with
        | some ny =>
          rw [hx, hy] at hxy
          have := (hbound _ (UMap.find?_mem hy)).2
          simp only at this hxy
          omega
        | none =>
          rw [hx, hy] at hxy
          simp only at hxy
          omega
    · intro i n id hi hm
      have hil := (List.getElem?_eq_some_iff.1 hi).1
      have hk : id ∈ UMap.keys m := (hinv.keys id).2 ⟨i, n, hil, hi, hm⟩
      obtain ⟨nid, hnid⟩ := Option.isSome_iff_exists.1 ((UMap.find?_isSome_iff m id).2 hk)
      have ht : target id = nid := by simp only [target, hnid]
      have hmem := UMap.find?_mem hnid
      refine ⟨by rw [ht]; exact (hbound _ hmem).1, ?_, ?_⟩
      · have := hinv.old i n hi
        rw [if_pos hil, hm] at this
        simp only [hnid] at this
        rw [ht]
        exact this
      · rw [ht]
        have := hinv.new _ hmem
        simp only [binHTC, List.take_length, Node.default] at this
        exact this

/-- With room for one more node per node in the range, and a range that is not a single temperature,
the reduction succeeds. -/
theorem c51_ok (a : RedArgs) (hR : a.minR ≤ a.fakeR) (hT : a.maxT ≠ a.minT) (cap : Nat) (net : Network ℚ)
    (hr : ∀ (i : Nat) (n : Node ℚ), net[i]? = some n → ∀ e ∈ n.ns, e.1 < net.length)
    (hcap : 2 * net.length ≤ cap) : ∃ s, reduceBonds a cap net = .ok s := by
  have key : ∀ (r k : Nat) (s : Network ℚ × List (Nat × Nat)), k + r = net.length → RedInv a net k s.1 s.2 →
      s.2.length ≤ k → ∃ s', redLoop a cap k r s = .ok s' := by
    intro r
    induction r with
    | zero => intro k s _ _ _; exact ⟨s, rfl⟩
    | succ r ih =>
      intro k s hk hinv hlen
      obtain ⟨net1, m⟩ := s
      obtain ⟨n, hn⟩ : ∃ n, net[k]? = some n := ⟨_, List.getElem?_eq_getElem (show k < net.length by omega)⟩
      have hkn : net1[k]? = some n := by
        have := hinv.old k n hn
        rw [if_neg (lt_irrefl k)] at this
        exact this
      have hl := hinv.len
      simp only at hl hlen
      have hstep : ∃ s1, redStep a cap (net1, m) k = .ok s1 ∧ s1.2.length ≤ k + 1 := by
        unfold redStep
        simp only [hkn]
        cases ht : n.t with
        | none => exact ⟨_, rfl, by simp only; omega⟩
        | some t =>
          simp only
          by_cases hrange : t < a.minT ∨ a.maxT < t
          · rw [if_pos hrange]; exact ⟨_, rfl, by simp only; omega⟩
          · rw [if_neg hrange]
            obtain ⟨id, hb⟩ : ∃ id, a.bin t = some id := by
              unfold RedArgs.bin
              rw [if_neg hT]
              split
              · exact ⟨_, rfl⟩
              · exact ⟨_, rfl⟩
            rw [hb]
            simp only
            have hkeys : ∀ x, net.length ≤ x → x ∉ UMap.keys n.ns := by
              intro x hx hc
              unfold UMap.keys at hc
              rw [List.mem_map] at hc
              obtain ⟨e, he, heq⟩ := hc
              have := hr k n hn e he
              omega
            cases hfind : UMap.find? m id with
            | some nid =>
              simp only
              have hmem := UMap.find?_mem hfind
              obtain ⟨j, hj⟩ := List.getElem?_of_mem hmem
              have h1 := hinv.vals j _ hj
              have h2 := (List.getElem?_eq_some_iff.1 hj).1
              simp only at h1
              obtain ⟨net2, e1, -⟩ := moveTo_ok a hR net1 nid k n _ (by omega) hkn (hinv.new _ hmem) (hkeys _ (by omega))
              rw [e1]
              exact ⟨_, rfl, by simp only; omega⟩
            | none =>
              simp only
              rw [if_pos (by omega)]
              have hnew : (net1 ++ [{ (Node.default a.scen : Node ℚ) with t := none }])[net1.length]? =
                  some { (Node.default a.scen : Node ℚ) with t := none } := by simp
              obtain ⟨net2, e1, -⟩ := moveTo_ok a hR (net1 ++ [{ (Node.default a.scen : Node ℚ) with t := none }])
                net1.length k n _ (by omega) (by rw [List.getElem?_append_left (by omega)]; exact hkn)
                hnew (hkeys _ (by omega))
              simp only [appendNode]
              rw [e1]
              refine ⟨_, rfl, ?_⟩
              simp only [UMap.emplace]
              split
              · simp only; omega
              · simp only [List.length_append, List.length_singleton]; omega
      obtain ⟨s1, h1, h2⟩ := hstep
      rw [redLoop, h1, Res.bind_ok]
      exact ih (k + 1) s1 (by omega) (redStep_inv a hR cap net hr k (by omega) net1 m hinv s1 h1) h2
  exact key net.length 0 (net, []) (by omega) (redInv_start a net) (by simp)

/-- The full claim fails whenever the node vector is full, as it is after construction: the first node in
the range makes the vector move while a reference into it is in use. -/
theorem c51_dangling_refuted (a : RedArgs) (net : Network ℚ) (i : Nat) (n : Node ℚ) (id : Nat)
    (hi : net[i]? = some n) (hm : a.moved n = some id) : reduceBonds a net.length net = .ub := by
  have key : ∀ (r k : Nat), k + r = net.length → k ≤ i →
      (∀ (j : Nat) (nj : Node ℚ), j < k → net[j]? = some nj → a.moved nj = none) →
      redLoop a net.length k r (net, []) = .ub := by
    intro r
    induction r with
    | zero =>
      intro k hk hki _
      have := (List.getElem?_eq_some_iff.1 hi).1
      omega
    | succ r ih =>
      intro k hk hki hbefore
      obtain ⟨nk, hnk⟩ : ∃ nk, net[k]? = some nk := ⟨_, List.getElem?_eq_getElem (show k < net.length by omega)⟩
      have hstep : redStep a net.length (net, []) k = .ub ∨
          redStep a net.length (net, []) k = .ok (net, []) ∧ a.moved nk = none := by
        unfold redStep
        simp only [hnk]
        cases ht : nk.t with
        | none => right; exact ⟨rfl, by simp [RedArgs.moved, ht]⟩
        | some t =>
          simp only
          by_cases hrange : t < a.minT ∨ a.maxT < t
          · right
            rw [if_pos hrange]
            refine ⟨rfl, ?_⟩
            simp only [RedArgs.moved, ht]
            rw [if_neg]
            rintro ⟨h1, h2⟩
            rcases hrange with h3 | h3 <;> linarith
          · left
            rw [if_neg hrange]
            cases a.bin t with
            | none => rfl
            | some id' =>
              simp only [UMap.find?_nil]
              rw [if_neg (lt_irrefl _)]
      rw [redLoop]
      rcases hstep with h1 | ⟨h1, h2⟩
      · rw [h1]; rfl
      · rw [h1, Res.bind_ok]
        have hne : k ≠ i := by
          rintro rfl
          rw [hi] at hnk
          injection hnk with hnk
          subst hnk
          rw [hm] at h2
          simp at h2
        refine ih (k + 1) (by omega) (by omega) ?_
        intro j nj hj hnj
        by_cases hjk : j = k
        · subst hjk
          rw [hnk] at hnj
          injection hnj with hnj
          subst hnj
          exact h2
        · exact hbefore j nj (by omega) hnj
  exact key net.length 0 (by omega) (by omega) (by intro j nj hj; omega)

/-- example: four nodes, three of them in the range and two in the same bin -/
def exArgs : RedArgs := ⟨1 / 100, 1 / 100, 1 / 1000, 7, 20, 40, 2⟩
def exBonds : Network ℚ :=
  [⟨7, some 25, 1, 0, 2, [(1, 1)]⟩, ⟨7, some 50, 1, 3, 0, []⟩, ⟨7, some 29, 1, 0, 4, []⟩, ⟨7, some 33, 1, 0, 5, []⟩]

example : (match reduceBonds exArgs 8 exBonds with
    | .ok s => decide (s.1.map Node.htc = [0, 0, 0, 0, 6, 5] ∧ s.2 = [(0, 4), (1, 5)])
    | _ => false) = true := by decide +kernel
example : exArgs.minR ≤ exArgs.fakeR ∧ exArgs.maxT ≠ exArgs.minT ∧ exArgs.moved ⟨7, some 25, 1, 0, 2, [(1, 1)]⟩ = some 0 := by
  decide +kernel

end Ecad.Thermal
