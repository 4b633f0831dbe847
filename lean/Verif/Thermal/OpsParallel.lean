import Verif.Thermal.OpsProps
/-!
Calls on different nodes of a network commute: lemmas for builders that run on several threads.
-/
namespace Ecad.Thermal

variable {K : Type} [Field K] [LinearOrder K]

/-- the node whose record a call changes -/
def Op.writes : Res (Op K) → Option Nat
  | .ok (.scen i _) => some i
  | .ok (.c i _) => some i
  | .ok (.hf i _) => some i
  | .ok (.addHF i _) => some i
  | .ok (.htc i _) => some i
  | .ok (.addHTC i _) => some i
  | .ok (.r a b _) => some (min a b)
  | _ => none

/-- Interleavings of lists: `s` takes the first entry of one of the lists, and so on. This is what
threads, each with one of the lists, may do. -/
inductive Shuffle {α : Type _} : List (List α) → List α → Prop
  | done (ls : List (List α)) (h : ∀ l ∈ ls, l = []) : Shuffle ls []
  | step (pre post : List (List α)) (a : α) (l s : List α) (h : Shuffle (pre ++ l :: post) s) :
      Shuffle (pre ++ (a :: l) :: post) (a :: s)

theorem Shuffle.filter {α : Type _} (p : α → Bool) {ls : List (List α)} {s : List α} (h : Shuffle ls s) :
    Shuffle (ls.map (List.filter p)) (s.filter p) := by
  induction h with
  | done ls h =>
    refine .done _ ?_
    intro l hl
    rw [List.mem_map] at hl
    obtain ⟨m, hm, rfl⟩ := hl
    rw [h m hm]; rfl
  | step pre post a l s _ ih =>
    rw [List.map_append, List.map_cons] at ih ⊢
    by_cases hp : p a
    · rw [List.filter_cons_of_pos hp, List.filter_cons_of_pos hp]
      exact .step _ _ _ _ _ ih
    · rw [List.filter_cons_of_neg hp, List.filter_cons_of_neg hp]
      exact ih

theorem Shuffle.mem {α : Type _} {ls : List (List α)} {s : List α} (h : Shuffle ls s) (a : α) : a ∈ s ↔ ∃ l ∈ ls, a ∈ l := by
  induction h with
  | done ls h =>
    constructor
    · intro h; simp at h
    · rintro ⟨l, hl, ha⟩; rw [h l hl] at ha; simp at ha
  | step pre post b l s _ ih =>
    rw [List.mem_cons, ih]
    simp only [List.mem_append, List.mem_cons]
    constructor
    · rintro (rfl | ⟨m, (hm | rfl | hm), ha⟩)
      · exact ⟨_, .inr (.inl rfl), by simp⟩
      · exact ⟨m, .inl hm, ha⟩
      · exact ⟨_, .inr (.inl rfl), by simp [ha]⟩
      · exact ⟨m, .inr (.inr hm), ha⟩
    · rintro ⟨m, (hm | rfl | hm), ha⟩
      · exact .inr ⟨m, .inl hm, ha⟩
      · rcases List.mem_cons.1 ha with rfl | ha
        · exact .inl rfl
        · exact .inr ⟨l, .inr (.inl rfl), ha⟩
      · exact .inr ⟨m, .inr (.inr hm), ha⟩

/-- if at most one of the lists has entries, there is one interleaving -/
theorem Shuffle.unique {α : Type _} {ls : List (List α)} {s : List α} (h : Shuffle ls s)
    (h1 : ls.Pairwise fun a b => a = [] ∨ b = []) : s = ls.flatten := by
  induction h with
  | done ls h =>
    symm
    rw [List.flatten_eq_nil_iff]
    exact h
  | step pre post a l s _ ih =>
    rw [List.pairwise_append, List.pairwise_cons] at h1
    obtain ⟨p1, ⟨p2, p3⟩, p4⟩ := h1
    have hpre : ∀ x ∈ pre, x = [] := by
      intro x hx
      rcases p4 x hx (a :: l) (by simp) with h | h
      · exact h
      · simp at h
    have hpost : ∀ x ∈ post, x = [] := by
      intro x hx
      rcases p2 x hx with h | h
      · simp at h
      · exact h
    rw [ih]
    · rw [List.flatten_append, List.flatten_append, List.flatten_eq_nil_iff.2 hpre]
      simp
    · rw [List.pairwise_append, List.pairwise_cons]
      refine ⟨p1, ⟨fun x hx => .inr (hpost x hx), p3⟩, fun x hx y _ => .inl (hpre x hx)⟩

/-- what a call does to the record of its node -/
def Op.change (minR : K) : Res (Op K) → Node K → Node K
  | .ok (.scen _ s), n => { n with scen := s }
  | .ok (.c _ v), n => { n with c := v }
  | .ok (.hf _ v), n => { n with hf := v }
  | .ok (.addHF _ v), n => { n with hf := n.hf + v }
  | .ok (.htc _ v), n => { n with htc := v }
  | .ok (.addHTC _ v), n => { n with htc := n.htc + v }
  | .ok (.r a b v), n => { n with ns := setNs n.ns (max a b) (max v minR) }
  | _, n => n

theorem exec_get {minR : K} (i : Nat) (net net' : Network K) (op : Op K) (h : op.exec minR net = .ok net') (hop : op ≠ .append) :
    net'[i]? = if Op.writes (.ok op) = some i then net[i]?.map (Op.change minR (.ok op)) else net[i]? := by
  cases op <;> simp only [Op.exec, setC, setHF, addHF, setHTC, addHTC, setR_eq, upd_ok] at h
  case append => exact absurd rfl hop
  all_goals
    obtain ⟨_, rfl⟩ := h
    rw [get_modify]
    simp only [Op.writes, Option.some.injEq, eq_comm (a := i)]
    rfl

theorem run_get {minR : K} (i : Nat) (l : List (Res (Op K))) (hl : ∀ o ∈ l, Op.nodes o = 0) : ∀ {net net' : Network K},
    run minR net l = .ok net' →
    net'[i]? = net[i]?.map fun n => (l.filter fun o => Op.writes o = some i).foldl (fun n o => Op.change minR o n) n := by
  induction l with
  | nil => intro net net' h; simp [run] at h; simp [h]
  | cons o l ih =>
    intro net net' h
    have ho := hl o (by simp)
    rcases o with op | _ | _
    · rw [run] at h
      cases h1 : op.exec minR net with
      | ub => rw [h1] at h; simp at h
      | exn => rw [h1] at h; simp at h
      | ok n1 =>
        rw [h1, Res.bind_ok] at h
        rw [ih (fun o' ho' => hl o' (by simp [ho'])) h, exec_get i _ _ _ h1 (by rintro rfl; simp [Op.nodes] at ho)]
        split_ifs with hw
        · rw [List.filter_cons_of_pos (by simpa using hw), Option.map_map]
          rfl
        · rw [List.filter_cons_of_neg (by simpa using hw)]
    · simp [run] at h
    · simp [run] at h

/-- Calls that append nothing and write the same to every node in the same order give the same network. -/
theorem run_reorder {minR : K} {l l' : List (Res (Op K))} {net net' : Network K} (hl : ∀ o ∈ l, Op.nodes o = 0)
    (hm : ∀ o, o ∈ l' ↔ o ∈ l)
    (hw : ∀ i, (l'.filter fun o => Op.writes o = some i) = l.filter fun o => Op.writes o = some i)
    (h : run minR net l = .ok net') : run minR net l' = .ok net' := by
  have hs := (run_safe (minR := minR) l (net := net)).1 ⟨net', h⟩
  have hfit : ∀ (l : List (Res (Op K))) (n : Nat), (∀ o ∈ l, Op.nodes o = 0) → Safe n l → ∀ o ∈ l, Op.Fits n o := by
    intro l
    induction l with
    | nil => intro n _ _ o ho; simp at ho
    | cons a l ih =>
      intro n hl hs o ho
      obtain ⟨h1, h2⟩ := hs
      rw [hl a (by simp)] at h2
      rcases List.mem_cons.1 ho with rfl | ho
      · exact h1
      · exact ih n (fun o' ho' => hl o' (by simp [ho'])) h2 o ho
  have hl' : ∀ o ∈ l', Op.nodes o = 0 := fun o ho => hl o ((hm o).1 ho)
  obtain ⟨net2, h2⟩ := (run_safe (minR := minR) l' (net := net)).2
    (safe_of_fits fun o ho => hfit l _ hl hs o ((hm o).1 ho))
  rw [h2]
  congr 1
  apply List.ext_getElem?
  intro i
  rw [run_get i l' hl' h2, run_get i l hl h, hw]

/-- an interleaving of lists no two of which write to the same node writes to every node what the lists write one after the
other -/
theorem shuffle_filter {ls : List (List (Res (Op K)))} {s : List (Res (Op K))} (hs : Shuffle ls s)
    (hd : ls.Pairwise fun a b => ∀ o ∈ a, ∀ o' ∈ b, ∀ i, Op.writes o = some i → Op.writes o' ≠ some i) (i : Nat) :
    (s.filter fun o => Op.writes o = some i) = ls.flatten.filter fun o => Op.writes o = some i := by
  rw [(hs.filter _).unique, ← List.filter_flatten]
  rw [List.pairwise_map]
  refine hd.imp ?_
  intro a b hab
  by_contra hne
  push Not at hne
  obtain ⟨o, ho⟩ := List.exists_mem_of_ne_nil _ hne.1
  obtain ⟨o', ho'⟩ := List.exists_mem_of_ne_nil _ hne.2
  rw [List.mem_filter] at ho ho'
  exact hab o ho.1 o' ho'.1 i (by simpa using ho.2) (by simpa using ho'.2)

/-- **Threads.** Lists of calls, no two of them writing to the same node, give in every interleaving the network they give
one after the other. -/
theorem run_shuffle {minR : K} {ls : List (List (Res (Op K)))} {s : List (Res (Op K))} {net net' : Network K}
    (hs : Shuffle ls s) (hn : ∀ l ∈ ls, ∀ o ∈ l, Op.nodes o = 0)
    (hd : ls.Pairwise fun a b => ∀ o ∈ a, ∀ o' ∈ b, ∀ i, Op.writes o = some i → Op.writes o' ≠ some i)
    (h : run minR net ls.flatten = .ok net') : run minR net s = .ok net' := by
  refine run_reorder (l := ls.flatten) ?_ ?_ ?_ h
  · intro o ho
    rw [List.mem_flatten] at ho
    obtain ⟨l, hl, ho⟩ := ho
    exact hn l hl o ho
  · intro o
    rw [hs.mem, List.mem_flatten]
  · exact shuffle_filter hs hd

end Ecad.Thermal
