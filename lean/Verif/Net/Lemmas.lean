import Verif.Net.Model
namespace Ecad
namespace Net

theorem uidValue_inj {m n : Nat} (hm : m < 2 ^ 32) (hn : n < 2 ^ 32)
    (h : uidValue m = uidValue n) : m = n := by
  unfold uidValue Int.bmod at h
  have e : ((2 ^ 32 : Nat) : Int) = 4294967296 := by decide
  simp only [e] at h
  split at h <;> split at h <;> omega

/-- Invariant of reachable collections. -/
structure Inv (c : Coll) : Prop where
  wf : UMap.WF c.nets
  named : ∀ e ∈ c.nets, e.2.name = e.1
  ids : ∃ f : String → Nat, (∀ e ∈ c.nets, e.2.id = uidValue (f e.1) ∧ f e.1 < c.uid) ∧
    ∀ e ∈ c.nets, ∀ e' ∈ c.nets, f e.1 = f e'.1 → e.1 = e'.1
  lut : ∀ l, c.lut = some l → c.uid ≤ 2 ^ 32 →
    UMap.WF l ∧ ∀ i n, (i, n) ∈ l ↔ ∃ e ∈ c.nets, e.2.id = i ∧ e.2.name = n

theorem inv_empty : Inv {} :=
  ⟨UMap.WF_nil, by simp, ⟨fun _ => 0, by simp, by simp⟩, by simp⟩

theorem ids_inj {c : Coll} (h : Inv c) (hu : c.uid ≤ 2 ^ 32) {e e' : String × Net}
    (he : e ∈ c.nets) (he' : e' ∈ c.nets) (hid : e.2.id = e'.2.id) : e = e' := by
  obtain ⟨f, hf, hinj⟩ := h.ids
  have h1 := hf e he
  have h2 := hf e' he'
  rw [h1.1, h2.1] at hid
  have := uidValue_inj (by omega) (by omega) hid
  have hk := hinj e he e' he' this
  have a := (UMap.find?_eq_some_iff h.wf e.1 e.2).2 he
  have b := (UMap.find?_eq_some_iff h.wf e'.1 e'.2).2 he'
  rw [hk] at a
  have hs : e.2 = e'.2 := by rw [a] at b; simpa using b
  exact Prod.ext hk hs

theorem foldl_lut (m : List (String × Net)) (acc : List (Int × String))
    (hnd : (m.map (fun e => e.2.id)).Nodup) (hacc : UMap.WF acc)
    (hdis : ∀ e ∈ m, e.2.id ∉ UMap.keys acc) :
    UMap.WF (m.foldl (fun l e => (UMap.emplace l e.2.id e.2.name).1) acc) ∧
    ∀ i n, (i, n) ∈ m.foldl (fun l e => (UMap.emplace l e.2.id e.2.name).1) acc ↔
      (i, n) ∈ acc ∨ ∃ e ∈ m, e.2.id = i ∧ e.2.name = n := by
  induction m generalizing acc with
  | nil => simp [hacc]
  | cons e m ih =>
    simp only [List.map_cons, List.nodup_cons, List.mem_map, not_exists, not_and] at hnd
    have hc : UMap.count acc e.2.id = false := by
      rw [UMap.count_eq_false_iff]; exact hdis e (by simp)
    have he : (UMap.emplace acc e.2.id e.2.name).1 = acc ++ [(e.2.id, e.2.name)] := by
      simp [UMap.emplace, hc]
    rw [List.foldl_cons, he]
    have hw : UMap.WF (acc ++ [(e.2.id, e.2.name)]) := by
      rw [← he]; exact UMap.WF_emplace hacc _ _
    obtain ⟨h1, h2⟩ := ih (acc ++ [(e.2.id, e.2.name)]) hnd.2 hw (by
      intro e' he' hk
      simp only [UMap.keys, List.map_append, List.map_cons, List.map_nil, List.mem_append,
        List.mem_singleton] at hk
      rcases hk with hk | hk
      · exact hdis e' (by simp [he']) hk
      · exact hnd.1 e' he' hk)
    refine ⟨h1, ?_⟩
    intro i n
    rw [h2]
    simp only [List.mem_append, Prod.mk.injEq, List.mem_cons, exists_eq_or_imp, List.not_mem_nil, or_false]
    constructor
    · rintro ((h | ⟨h3, h4⟩) | h)
      · exact Or.inl h
      · exact Or.inr (Or.inl ⟨h3.symm, h4.symm⟩)
      · exact Or.inr (Or.inr h)
    · rintro (h | ⟨h3, h4⟩ | h)
      · exact Or.inl (Or.inl h)
      · exact Or.inl (Or.inr ⟨h3.symm, h4.symm⟩)
      · exact Or.inr h

theorem nodup_ids {c : Coll} (h : Inv c) (hu : c.uid ≤ 2 ^ 32) :
    (c.nets.map (fun e => e.2.id)).Nodup := by
  have hnd : c.nets.Nodup := List.Nodup.of_map _ h.wf
  exact List.Nodup.map_on (fun e he e' he' hid => ids_inj h hu he he' hid) hnd

theorem inv_buildLUT {c : Coll} (h : Inv c) : Inv (buildLUT c) := by
  unfold buildLUT
  split
  · exact h
  · refine ⟨h.wf, h.named, h.ids, ?_⟩
    intro l hl hu
    simp only [Option.some.injEq] at hl
    subst hl
    obtain ⟨h1, h2⟩ := foldl_lut c.nets [] (nodup_ids h hu) UMap.WF_nil (by simp [UMap.keys])
    exact ⟨h1, fun i n => by rw [h2]; simp⟩

theorem buildLUT_nets (c : Coll) : (buildLUT c).nets = c.nets := by
  unfold buildLUT; split <;> rfl
theorem buildLUT_uid (c : Coll) : (buildLUT c).uid = c.uid := by
  unfold buildLUT; split <;> rfl
theorem buildLUT_lut (c : Coll) : ∃ l, (buildLUT c).lut = some l := by
  unfold buildLUT; split
  · exact ⟨_, ‹_›⟩
  · exact ⟨_, rfl⟩

theorem findById_fst (c : Coll) (id : Int) : (findById c id).1 = buildLUT c := by
  unfold findById; simp only; split <;> rfl

theorem inv_push {c : Coll} (h : Inv c) (name : String) (hn : UMap.count c.nets name = false) :
    Inv { nets := (UMap.emplace c.nets name ⟨name, uidValue c.uid⟩).1, uid := c.uid + 1,
          lut := none } := by
  have he : (UMap.emplace c.nets name (⟨name, uidValue c.uid⟩ : Net)).1 =
      c.nets ++ [(name, ⟨name, uidValue c.uid⟩)] := by simp [UMap.emplace, hn]
  have hnk : name ∉ UMap.keys c.nets := (UMap.count_eq_false_iff _ _).1 hn
  refine ⟨UMap.WF_emplace h.wf _ _, ?_, ?_, by simp⟩
  · simp only [he]
    intro e hm
    simp only [List.mem_append, List.mem_singleton] at hm
    rcases hm with hm | hm
    · exact h.named e hm
    · rw [hm]
  · obtain ⟨f, hf, hinj⟩ := h.ids
    refine ⟨fun s => if s = name then c.uid else f s, ?_, ?_⟩
    · simp only [he]
      intro e hm
      simp only [List.mem_append, List.mem_singleton] at hm
      rcases hm with hm | hm
      · have hne : e.1 ≠ name := by
          intro hc; apply hnk; rw [← hc]; exact List.mem_map_of_mem (f := Prod.fst) hm
        simp only [hne, if_false]
        exact ⟨(hf e hm).1, by have := (hf e hm).2; omega⟩
      · rw [hm]; simp
    · simp only [he]
      intro e hm e' hm' hff
      simp only [List.mem_append, List.mem_singleton] at hm hm'
      have hne : ∀ e ∈ c.nets, e.1 ≠ name := by
        intro e hm hc; apply hnk; rw [← hc]; exact List.mem_map_of_mem (f := Prod.fst) hm
      rcases hm with hm | hm <;> rcases hm' with hm' | hm'
      · simp only [hne e hm, hne e' hm', if_false] at hff
        exact hinj e hm e' hm' hff
      · subst hm'
        simp only [hne e hm, if_false, if_true] at hff
        have := (hf e hm).2; omega
      · subst hm
        simp only [hne e' hm', if_false, if_true] at hff
        have := (hf e' hm').2; omega
      · rw [hm, hm']

theorem nextName_fresh (c : Coll) (name : String) :
    UMap.count c.nets (Naming.nextName (UMap.keys c.nets) name) = false := by
  rw [UMap.count_eq_false_iff]; exact Naming.nextName_not_mem _ _

theorem inv_step {c : Coll} (h : Inv c) (o : Op) : Inv (step c o).1 := by
  cases o with
  | create n =>
    simp only [step, createNet]
    split
    · exact h
    · rename_i hc
      exact inv_push h n (by simpa using hc)
  | add n => exact inv_push h _ (nextName_fresh c n)
  | byId i =>
    simp only [step, findById_fst]
    exact inv_buildLUT h
  | byName n => exact h
  | clear => exact inv_empty

theorem inv_run {c : Coll} (h : Inv c) (os : List Op) : Inv (run c os) := by
  induction os generalizing c with
  | nil => exact h
  | cons o os ih => exact ih (inv_step h o)

theorem uid_step (c : Coll) (o : Op) : (step c o).1.uid ≤ c.uid + 1 := by
  cases o with
  | create n => simp only [step, createNet]; split <;> simp
  | add n => simp [step, addNet]
  | byId i => simp only [step, findById_fst, buildLUT_uid]; omega
  | byName n => simp [step]
  | clear => simp [step, clear]

theorem uid_run (c : Coll) (os : List Op) : (run c os).uid ≤ c.uid + os.length := by
  induction os generalizing c with
  | nil => simp [run]
  | cons o os ih =>
    have h1 := ih (step c o).1
    have h2 := uid_step c o
    simp only [run, List.foldl_cons, List.length_cons] at *
    omega

theorem findByName_eq (c : Coll) (n : String) : findByName c n = UMap.find? c.nets n := by
  unfold findByName
  rw [← UMap.find?_isSome_eq_count]
  cases h : UMap.find? c.nets n <;> simp

theorem findById_iff {c : Coll} (h : Inv c) (hu : c.uid ≤ 2 ^ 32) (i : Int) (n : Net) :
    (findById c i).2 = some n ↔ (∃ k, (k, n) ∈ c.nets) ∧ n.id = i := by
  have hb := inv_buildLUT h
  obtain ⟨l, hl⟩ := buildLUT_lut c
  obtain ⟨hw, hm⟩ := hb.lut l hl (by rw [buildLUT_uid]; exact hu)
  simp only [buildLUT_nets] at hm
  have hred : (findById c i).2 = (UMap.find? l i).bind (fun name => UMap.find? c.nets name) := by
    simp only [findById, hl, Option.getD_some]
    cases hx : UMap.find? l i with
    | none => rfl
    | some name => simp only [findByName_eq, buildLUT_nets, Option.bind_some]
  rw [hred]
  constructor
  · intro hh
    cases hx : UMap.find? l i with
    | none => rw [hx] at hh; simp at hh
    | some name =>
      rw [hx, Option.bind_some] at hh
      obtain ⟨e, he, h1, h2⟩ := (hm i name).1 (UMap.find?_mem hx)
      have hk := h.named e he
      rw [← h2, hk, (UMap.find?_eq_some_iff h.wf e.1 e.2).2 he] at hh
      simp only [Option.some.injEq] at hh
      subst hh
      exact ⟨⟨e.1, he⟩, h1⟩
  · rintro ⟨⟨k, hk⟩, hid⟩
    have hl2 : (i, n.name) ∈ l := (hm i n.name).2 ⟨(k, n), hk, hid, rfl⟩
    rw [(UMap.find?_eq_some_iff hw i n.name).2 hl2, Option.bind_some]
    have := h.named _ hk
    simp only at this
    rw [this]
    exact (UMap.find?_eq_some_iff h.wf k n).2 hk

end Net
end Ecad
