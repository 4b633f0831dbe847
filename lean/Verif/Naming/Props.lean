import Verif.Naming.Lemmas
/-!
C01: suggested names are always free.
-/
namespace Ecad
open Naming

/-- Specification (independent of the loop): `r` is the name to be suggested for `base` when the
names in `used` are taken. -/
def IsNextName (used : List String) (base r : String) : Prop :=
  r ∉ used ∧
  (base ∉ used → r = base) ∧
  (base ∈ used → ∃ n : Nat, 1 ≤ n ∧ r = base ++ toString n ∧
    ∀ m : Nat, 1 ≤ m → m < n → base ++ toString m ∈ used)

/-- **C01.** For every list of used names and every base name the search loop returns (there is a
number of iterations after which it has returned, and its answer does not depend on how much
longer it may run), and what it returns is the specified free name. -/
theorem c01_next_name (used : List String) (base : String) :
    ∃ r, IsNextName used base r ∧
      ∀ fuel, used.length + 1 ≤ fuel → nextKey used base fuel = some r := by
  refine ⟨nextName used base, ⟨nextName_not_mem used base, ?_, ?_⟩, ?_⟩
  · intro hb
    have h := nextName_eq used base
    unfold nextKey at h
    have hc : used.contains base = false := by simpa using hb
    simp only [hc, Bool.not_false, if_true, Option.some.injEq] at h
    exact h.symm
  · intro hb
    have h := nextName_eq used base
    unfold nextKey at h
    have hc : used.contains base = true := by simpa using hb
    simp only [hc, Bool.not_true, Bool.false_eq_true, if_false] at h
    obtain ⟨n, h1, h2, _, h4⟩ := loop_some h
    exact ⟨n, h1, h2, fun m hm hmn => by simpa using h4 m hm hmn⟩
  · intro fuel hf
    obtain ⟨k, rfl⟩ := Nat.exists_eq_add_of_le hf
    exact nextKey_fuel_mono (nextName_eq used base) k

/-- A base name which is taken together with its first two numbered variants. -/
example : nextKey ["net", "net1", "net2", "net4"] "net" 10 = some "net3" := by decide
/-- A free base name. -/
example : nextKey ["net1", "net2"] "net" 10 = some "net" := by decide

end Ecad
