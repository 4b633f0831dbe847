import Verif.Design.RegistryModel
import Mathlib.Data.List.Induction
/-!
C15: the registry is a dictionary of live databases.
-/
namespace Ecad.Registry

/-- `op` asks for a database with this name -/
def Makes (op : Op) (name : String) : Prop := op = .create name ∨ op = .load (some name)

/-- `op` ends the life of the database with this name -/
def Kills (op : Op) (name : String) : Prop := op = .remove name ∨ op = .shutDown

theorem run_append (r : Reg) (n : Nat) (a b : List Op) :
    run r n (a ++ b) = run (run r n a) (n + a.length) b := by
  induction a generalizing r n with
  | nil => rfl
  | cons x xs ih =>
    simp only [List.cons_append, run, ih, List.length_cons]
    congr 1; omega

/-- effect of one call on what can be opened -/
theorem open_step (r : Reg) (d : Nat) (op : Op) (name : String) (x : Nat) :
    openDb (step r d op).1 name = some x ↔
      (openDb r name = some x ∧ ¬ Kills op name) ∨
      (openDb r name = none ∧ Makes op name ∧ x = d) := by
  have reg : ∀ m, openDb r m = none →
      (openDb (register r m d).1 name = some x ↔
        openDb r name = some x ∨ (openDb r name = none ∧ m = name ∧ x = d)) := by
    intro m hm
    unfold register openDb at *
    rw [UMap.find?_emplace']
    by_cases h : name = m
    · subst h; simp [hm, eq_comm]
    · have h' : m ≠ name := fun e => h e.symm
      simp [h, h']
  have cnt : ∀ m, UMap.count r m = true ↔ openDb r m ≠ none := by
    intro m
    rw [← UMap.find?_isSome_eq_count]
    unfold openDb
    cases UMap.find? r m <;> simp
  have mk : ∀ m, (openDb (if UMap.count r m then (r, none) else register r m d).1 name = some x ↔
      openDb r name = some x ∨ (openDb r name = none ∧ m = name ∧ x = d)) := by
    intro m
    by_cases hc : UMap.count r m = true
    · rw [if_pos hc]
      have := (cnt m).1 hc
      constructor
      · exact Or.inl
      · rintro (h | ⟨h, rfl, _⟩)
        · exact h
        · exact absurd h this
    · rw [if_neg hc]
      exact reg m (by_contra fun h => hc ((cnt m).2 h))
  cases op with
  | create m => simp [step, create, mk, Kills, Makes]
  | load a =>
    cases a with
    | none => simp [step, load, Kills, Makes]
    | some m => simp [step, load, mk, Kills, Makes]
  | remove m =>
    simp only [step, remove, openDb, UMap.find?_erase, Kills, Makes]
    by_cases h : name = m
    · subst h; simp
    · have h' : m ≠ name := fun e => h e.symm
      simp [h, h']
  | shutDown => simp [step, openDb, UMap.find?_nil, Kills, Makes]

/-- **C15.** After any history, the database that opens under a name is the one made by a call of
the history that found the name free, and that was followed by no removal of the name and no
shutdown. -/
theorem c15_registry (ops : List Op) (name : String) (d : Nat) :
    openDb (run [] 0 ops) name = some d ↔
      ∃ before op after, ops = before ++ op :: after ∧ d = before.length ∧ Makes op name ∧
        openDb (run [] 0 before) name = none ∧ ∀ o ∈ after, ¬ Kills o name := by
  induction ops using List.reverseRecOn generalizing d with
  | nil => simp [run, openDb, UMap.find?_nil]
  | append_singleton ops op ih =>
    rw [run_append]
    simp only [run, Nat.zero_add]
    rw [open_step, ih]
    constructor
    · rintro (⟨⟨b, o, a, h1, h2, h3, h4, h5⟩, hk⟩ | ⟨h1, h2, h3⟩)
      · refine ⟨b, o, a ++ [op], by simp [h1], h2, h3, h4, ?_⟩
        intro x hx
        rcases List.mem_append.1 hx with hx | hx
        · exact h5 x hx
        · simp only [List.mem_singleton] at hx; subst hx; exact hk
      · exact ⟨ops, op, [], rfl, h3, h2, h1, by simp⟩
    · rintro ⟨b, o, a, h1, h2, h3, h4, h5⟩
      rcases List.eq_nil_or_concat a with rfl | ⟨a', z, rfl⟩
      · have := List.append_inj' h1 rfl
        simp only [List.cons.injEq, and_true] at this
        obtain ⟨rfl, rfl⟩ := this
        exact Or.inr ⟨h4, h3, h2⟩
      · rw [List.concat_eq_append] at *
        rw [← List.cons_append, ← List.append_assoc] at h1
        have := List.append_inj' h1 rfl
        simp only [List.cons.injEq, and_true] at this
        obtain ⟨rfl, rfl⟩ := this
        refine Or.inl ⟨⟨b, o, a', rfl, h2, h3, h4, ?_⟩, ?_⟩
        · intro x hx; exact h5 x (by simp [hx])
        · exact h5 op (by simp)

/-- **C15** (return values).  Creating and loading return the new database when the name is free and
null otherwise, in which case nothing changes; a file that cannot be read changes nothing; removal
tells whether the database was there. -/
theorem c15_returns (ops : List Op) (d : Nat) (name : String) (op : Op) :
    let r := run [] 0 ops
    (Makes op name → openDb r name = none → (step r d op).2 = .db (some d)) ∧
    (Makes op name → openDb r name ≠ none → (step r d op).2 = .db none ∧ (step r d op).1 = r) ∧
    (step r d (.load none) = (r, .db none)) ∧
    ((step r d (.remove name)).2 = .flag true ↔ openDb r name ≠ none) := by
  intro r
  have cnt : ∀ m, UMap.count r m = true ↔ openDb r m ≠ none := by
    intro m
    rw [← UMap.find?_isSome_eq_count]
    unfold openDb
    cases UMap.find? r m <;> simp
  refine ⟨?_, ?_, rfl, ?_⟩
  · rintro (rfl | rfl) h
    · have hc : ¬ UMap.count r name = true := fun hc => (cnt name).1 hc h
      simp only [step, create, if_neg hc, register]
      rw [UMap.find?_emplace']
      unfold openDb at h; simp [h]
    · have hc : ¬ UMap.count r name = true := fun hc => (cnt name).1 hc h
      simp only [step, load, if_neg hc, register]
      rw [UMap.find?_emplace']
      unfold openDb at h; simp [h]
  · rintro (rfl | rfl) h
    · simp [step, create, (cnt name).2 h]
    · simp [step, load, (cnt name).2 h]
  · simp [step, remove, cnt]

/-- a name removed and made again: the second object opens -/
example : openDb (run [] 0 [.create "a", .create "a", .remove "a", .load (some "a"), .create "b"]) "a"
    = some 3 := by decide

end Ecad.Registry
