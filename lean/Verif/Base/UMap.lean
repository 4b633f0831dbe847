import Mathlib.Data.List.Nodup
import Mathlib.Data.List.Perm.Basic
/-!
`std::unordered_map` as an association list with distinct keys.
The position in the list stands for the (unspecified) iteration order.
-/
namespace Ecad
namespace UMap

variable {K V : Type _} [DecidableEq K]

/-- `unordered_map::find` (standard library, used throughout). -/
def find? (m : List (K × V)) (k : K) : Option V := (m.find? (fun e => e.1 = k)).map Prod.snd

/-- `unordered_map::count` as a truth value. -/
def count (m : List (K × V)) (k : K) : Bool := m.any (fun e => e.1 = k)

/-- `unordered_map::emplace` / `insert`: keeps an existing entry; the second component is the
returned `.second`. -/
def emplace (m : List (K × V)) (k : K) (v : V) : List (K × V) × Bool :=
  if count m k then (m, false) else (m ++ [(k, v)], true)

/-- `unordered_map::erase(key)`. -/
def erase (m : List (K × V)) (k : K) : List (K × V) := m.filter (fun e => e.1 ≠ k)

/-- keys in iteration order -/
def keys (m : List (K × V)) : List K := m.map Prod.fst

/-- well-formedness: keys are distinct -/
def WF (m : List (K × V)) : Prop := (keys m).Nodup

theorem count_iff_mem_keys (m : List (K × V)) (k : K) : count m k = true ↔ k ∈ keys m := by
  simp [count, keys]

theorem count_eq_false_iff (m : List (K × V)) (k : K) : count m k = false ↔ k ∉ keys m := by
  rw [← count_iff_mem_keys]; simp

theorem find?_nil (k : K) : find? ([] : List (K × V)) k = none := rfl

theorem find?_cons (e : K × V) (m : List (K × V)) (k : K) :
    find? (e :: m) k = if e.1 = k then some e.2 else find? m k := by
  unfold find?
  by_cases h : e.1 = k
  · simp [h]
  · simp [List.find?_cons, h]

theorem find?_append (m n : List (K × V)) (k : K) :
    find? (m ++ n) k = (find? m k).or (find? n k) := by
  induction m with
  | nil => simp [find?_nil]
  | cons e m ih =>
    rw [List.cons_append, find?_cons, find?_cons, ih]
    split <;> simp

theorem find?_eq_none_iff (m : List (K × V)) (k : K) : find? m k = none ↔ k ∉ keys m := by
  induction m with
  | nil => simp [find?_nil, keys]
  | cons e m ih =>
    rw [find?_cons]
    by_cases h : e.1 = k
    · simp [h, keys]
    · simp only [h, if_false, ih, keys, List.map_cons, List.mem_cons]
      constructor
      · intro h1 h2
        rcases h2 with h2 | h2
        · exact h h2.symm
        · exact h1 h2
      · intro h1 h2
        exact h1 (Or.inr h2)

theorem find?_isSome_iff (m : List (K × V)) (k : K) : (find? m k).isSome = true ↔ k ∈ keys m := by
  have := find?_eq_none_iff m k
  cases h : find? m k with
  | none => simp [this.1 h]
  | some v =>
    simp only [Option.isSome_some, true_iff]
    by_contra hc
    rw [this.2 hc] at h
    cases h

theorem find?_isSome_eq_count (m : List (K × V)) (k : K) : (find? m k).isSome = count m k := by
  rw [Bool.eq_iff_iff, find?_isSome_iff, count_iff_mem_keys]

theorem find?_eq_some_iff {m : List (K × V)} (h : WF m) (k : K) (v : V) :
    find? m k = some v ↔ (k, v) ∈ m := by
  induction m with
  | nil => simp [find?_nil]
  | cons e m ih =>
    rw [find?_cons]
    have hw : WF m := by
      unfold WF keys at *; simp only [List.map_cons, List.nodup_cons] at h; exact h.2
    have hn : e.1 ∉ keys m := by
      unfold WF keys at *; simp only [List.map_cons, List.nodup_cons] at h; exact h.1
    by_cases hk : e.1 = k
    · subst hk
      simp only [if_true, Option.some.injEq, List.mem_cons]
      constructor
      · intro h1; left; rw [← h1]
      · rintro (h1 | h1)
        · rw [← h1]
        · exact absurd (List.mem_map_of_mem (f := Prod.fst) h1) hn
    · simp only [hk, if_false, ih hw, List.mem_cons]
      constructor
      · exact Or.inr
      · rintro (h1 | h1)
        · exact absurd (by rw [← h1]) hk
        · exact h1

theorem find?_mem {m : List (K × V)} {k : K} {v : V} (h : find? m k = some v) : (k, v) ∈ m := by
  induction m with
  | nil => simp [find?_nil] at h
  | cons e m ih =>
    rw [find?_cons] at h
    by_cases hk : e.1 = k
    · simp only [hk, if_true, Option.some.injEq] at h
      rw [List.mem_cons]; left; rw [← hk, ← h]
    · simp only [hk, if_false] at h
      exact List.mem_cons_of_mem _ (ih h)

theorem find?_erase (m : List (K × V)) (k k' : K) :
    find? (erase m k) k' = if k' = k then none else find? m k' := by
  induction m with
  | nil => simp [erase, find?_nil]
  | cons e m ih =>
    unfold erase at *
    rw [List.filter_cons]
    by_cases h : e.1 = k
    · simp only [h, ne_eq, not_true_eq_false, decide_false, Bool.false_eq_true, if_false, ih]
      by_cases h2 : k' = k
      · simp [h2]
      · simp [find?_cons, h2, h, Ne.symm h2]
    · simp only [ne_eq, h, not_false_eq_true, decide_true, if_true, find?_cons, ih]
      by_cases h2 : k' = k
      · subst h2; simp [h]
      · simp [h2]

theorem find?_emplace (m : List (K × V)) (k k' : K) (v : V) :
    find? (emplace m k v).1 k' =
      if count m k then find? m k' else if k' = k then some v else find? m k' := by
  unfold emplace
  by_cases h : count m k
  · simp [h]
  · have hn : find? m k = none := by
      rw [find?_eq_none_iff, ← count_eq_false_iff]; simpa using h
    simp only [h, Bool.false_eq_true, if_false, find?_append, find?_cons, find?_nil]
    by_cases h2 : k' = k
    · subst h2; simp [hn]
    · simp [h2, Ne.symm h2]

theorem find?_emplace' (m : List (K × V)) (k k' : K) (v : V) :
    find? (emplace m k v).1 k' = if k' = k ∧ find? m k = none then some v else find? m k' := by
  rw [find?_emplace]
  have h := find?_isSome_eq_count m k
  cases hm : find? m k with
  | none => rw [hm] at h; simp [← h]
  | some x => rw [hm] at h; simp [← h]

theorem keys_emplace (m : List (K × V)) (k : K) (v : V) :
    keys (emplace m k v).1 = if count m k then keys m else keys m ++ [k] := by
  unfold emplace keys
  split <;> simp

theorem keys_erase (m : List (K × V)) (k : K) : keys (erase m k) = (keys m).filter (· ≠ k) := by
  unfold keys erase
  rw [List.filter_map]
  rfl

theorem WF_nil : WF ([] : List (K × V)) := by simp [WF, keys]

theorem WF_emplace {m : List (K × V)} (h : WF m) (k : K) (v : V) : WF (emplace m k v).1 := by
  unfold WF at *
  rw [keys_emplace]
  split
  · exact h
  · rename_i hc
    have hn : k ∉ keys m := by rw [← count_eq_false_iff]; simpa using hc
    rw [List.nodup_append]
    refine ⟨h, by simp, ?_⟩
    intro a ha b hb hab
    simp only [List.mem_singleton] at hb
    subst hb; subst hab
    exact hn ha

theorem WF_erase {m : List (K × V)} (h : WF m) (k : K) : WF (erase m k) := by
  unfold WF at *
  rw [keys_erase]
  exact h.filter _

theorem WF_perm {m n : List (K × V)} (h : m.Perm n) (hm : WF m) : WF n := by
  unfold WF keys at *
  exact (h.map Prod.fst).nodup_iff.1 hm

/-- Lookups do not depend on the iteration order. -/
theorem find?_perm {m n : List (K × V)} (h : m.Perm n) (hm : WF m) (k : K) :
    find? m k = find? n k := by
  have hn := WF_perm h hm
  cases hv : find? m k with
  | some v =>
    symm
    rw [find?_eq_some_iff hn]
    exact h.mem_iff.1 (find?_mem hv)
  | none =>
    symm
    rw [find?_eq_none_iff] at *
    unfold keys at *
    intro hc
    exact hv ((h.map Prod.fst).mem_iff.2 hc)

end UMap
end Ecad
