import Verif.Collection.Model
import Mathlib.Data.Finset.Card
import Mathlib.Data.Finset.Filter
import Mathlib.Data.Finset.Dedup
import Mathlib.Data.Finset.Insert
/-!
C02: name-keyed collections behave like a dictionary.
-/
namespace Ecad
namespace Coll

variable {K V : Type _} [DecidableEq K]

/-! ### Specification: a dictionary as a partial function, defined from the history alone -/

/-- Contents of the dictionary after a history, given with the most recent call first. -/
def dict : List (Op K V) → K → Option V
  | [], _ => none
  | .insert k v force :: past, q =>
    if q = k ∧ (force = true ∨ dict past k = none) then some v else dict past q
  | .assign k v :: past, q => if q = k then some v else dict past q
  | .clear :: _, _ => none
  | .count _ :: past, q => dict past q
  | .at_ _ :: past, q => dict past q
  | .size :: past, q => dict past q

/-- The answer a dictionary gives to a call, given the past history (most recent first). -/
def dictAns (past : List (Op K V)) : Op K V → Ans V → Prop
  | .insert k _ force, a => a = .bool (force || (dict past k).isNone)
  | .assign _ _, a => a = .unit
  | .clear, a => a = .unit
  | .count k, a => a = .bool (dict past k).isSome
  | .at_ k, a => a = .val (match dict past k with | some v => .ok v | none => .exn)
  | .size, a => ∃ s : Finset K, (∀ k, k ∈ s ↔ (dict past k).isSome = true) ∧ a = .nat s.card

/-- All answers of a history agree with the dictionary. -/
def Answers (past : List (Op K V)) : List (Op K V) → List (Ans V) → Prop
  | [], as => as = []
  | o :: os, as => ∃ a as', as = a :: as' ∧ dictAns past o a ∧ Answers (o :: past) os as'

/-! ### Proof -/

theorem WF_insert {m : List (K × V)} (h : UMap.WF m) (k : K) (v : V) (f : Bool) :
    UMap.WF (insert m k v f).1 := by
  unfold insert
  apply UMap.WF_emplace
  split
  · exact UMap.WF_erase h k
  · exact h

theorem WF_assign {m : List (K × V)} (h : UMap.WF m) (k : K) (v : V) : UMap.WF (assign m k v) := by
  unfold assign UMap.WF UMap.keys
  rw [List.map_append, List.nodup_append]
  refine ⟨UMap.WF_erase h k, by simp, ?_⟩
  intro a ha b hb hab
  simp only [List.map_cons, List.map_nil, List.mem_singleton] at hb
  subst hb; subst hab
  have : a ∈ UMap.keys (UMap.erase m a) := ha
  rw [UMap.keys_erase] at this
  simp at this

theorem find?_insert (m : List (K × V)) (k q : K) (v : V) (f : Bool) :
    UMap.find? (insert m k v f).1 q =
      if q = k ∧ (f = true ∨ UMap.find? m k = none) then some v else UMap.find? m q := by
  unfold insert
  rw [UMap.find?_emplace]
  have hc := UMap.find?_isSome_eq_count m k
  by_cases hf : f = true
  · subst hf
    by_cases hk : UMap.count m k = true
    · have hce : UMap.count (UMap.erase m k) k = false := by
        rw [← UMap.find?_isSome_eq_count, UMap.find?_erase]; simp
      simp only [hk, Bool.and_self, if_true, hce, Bool.false_eq_true, if_false, true_or, and_true]
      by_cases hq : q = k
      · simp [hq]
      · simp [hq, UMap.find?_erase]
    · simp only [Bool.not_eq_true] at hk
      simp only [hk, Bool.and_false, Bool.false_eq_true, if_false, true_or, and_true]
  · simp only [Bool.not_eq_true] at hf
    subst hf
    simp only [Bool.false_and, Bool.false_eq_true, if_false, false_or]
    by_cases hk : UMap.count m k = true
    · rw [hk] at hc
      have : UMap.find? m k ≠ none := by intro h0; rw [h0] at hc; simp at hc
      simp [hk, this]
    · simp only [Bool.not_eq_true] at hk
      rw [hk] at hc
      have : UMap.find? m k = none := by simpa using hc
      simp [hk, this]

theorem insert_snd (m : List (K × V)) (k : K) (v : V) (f : Bool) :
    (insert m k v f).2 = (f || (UMap.find? m k).isNone) := by
  unfold insert UMap.emplace
  have hc := UMap.find?_isSome_eq_count m k
  cases f
  · simp only [Bool.false_and, Bool.false_eq_true, if_false, Bool.false_or]
    split
    · rename_i h; rw [h] at hc
      cases hx : UMap.find? m k with
      | none => rw [hx] at hc; simp at hc
      | some _ => rfl
    · rename_i h; simp only [Bool.not_eq_true] at h; rw [h] at hc
      have : UMap.find? m k = none := by simpa using hc
      simp [this]
  · simp only [Bool.true_and, Bool.true_or]
    have : UMap.count (if UMap.count m k = true then UMap.erase m k else m) k = false := by
      split
      · rw [← UMap.find?_isSome_eq_count, UMap.find?_erase]; simp
      · rename_i h; simpa using h
    simp [this]

theorem find?_assign (m : List (K × V)) (k q : K) (v : V) :
    UMap.find? (assign m k v) q = if q = k then some v else UMap.find? m q := by
  unfold assign
  rw [UMap.find?_append, UMap.find?_erase, UMap.find?_cons, UMap.find?_nil]
  by_cases h : q = k
  · simp [h]
  · simp [h, Ne.symm h]

theorem step_sim {m : List (K × V)} {past : List (Op K V)} (hw : UMap.WF m)
    (h : ∀ q, UMap.find? m q = dict past q) (o : Op K V) :
    UMap.WF (step m o).1 ∧ (∀ q, UMap.find? (step m o).1 q = dict (o :: past) q) ∧
      dictAns past o (step m o).2 := by
  cases o with
  | insert k v f =>
    refine ⟨WF_insert hw k v f, ?_, ?_⟩
    · intro q
      simp only [step, find?_insert, dict, h]
    · simp only [step, dictAns, insert_snd, h]
  | assign k v =>
    refine ⟨WF_assign hw k v, ?_, rfl⟩
    intro q
    simp only [step, find?_assign, dict, h]
  | clear => exact ⟨UMap.WF_nil, fun q => rfl, rfl⟩
  | count k =>
    refine ⟨hw, h, ?_⟩
    simp only [step, dictAns, count, ← UMap.find?_isSome_eq_count, h]
  | at_ k =>
    refine ⟨hw, h, ?_⟩
    simp only [step, dictAns, at_, h]
    cases dict past k <;> rfl
  | size =>
    refine ⟨hw, h, (UMap.keys m).toFinset, ?_, ?_⟩
    · intro k
      rw [List.mem_toFinset, ← UMap.find?_isSome_iff, h]
    · simp only [step, size]
      rw [List.toFinset_card_of_nodup hw]
      simp [UMap.keys]

theorem run_sim {m : List (K × V)} {past : List (Op K V)} (hw : UMap.WF m)
    (h : ∀ q, UMap.find? m q = dict past q) (os : List (Op K V)) :
    (∀ q, UMap.find? (run m os).1 q = dict (os.reverse ++ past) q) ∧
      Answers past os (run m os).2 := by
  induction os generalizing m past with
  | nil => exact ⟨h, rfl⟩
  | cons o os ih =>
    obtain ⟨h1, h2, h3⟩ := step_sim hw h o
    obtain ⟨h4, h5⟩ := ih h1 h2
    refine ⟨?_, _, _, rfl, h3, h5⟩
    simpa [run] using h4

/-- **C02.** For every history of calls starting from the empty collection, every answer is the
answer of a dictionary (a partial function determined by the history alone), including the
success flag of insertions, the exception for missing keys, and the size. -/
theorem c02_dictionary (os : List (Op K V)) : Answers [] os (run [] os).2 :=
  (run_sim UMap.WF_nil (fun _ => rfl) os).2

/-- Copying a collection gives a collection with the same answers (up to the cloning of the
objects): a part of C02 about copies. -/
theorem c02_copy (clone : V → V) (os : List (Op K V)) (q : K) :
    at_ (copyFrom clone (run [] os).1) q =
      match at_ (run [] os).1 q with | .ok v => .ok (clone v) | .ub => .ub | .exn => .exn := by
  have hw : UMap.WF (run ([] : List (K × V)) os).1 := by
    have : ∀ (m : List (K × V)), UMap.WF m → UMap.WF (run m os).1 := by
      induction os with
      | nil => intro m h; exact h
      | cons o os ih =>
        intro m h
        refine ih _ ?_
        cases o with
        | insert k v f => exact WF_insert h k v f
        | assign k v => exact WF_assign h k v
        | clear => exact UMap.WF_nil
        | count k => exact h
        | at_ k => exact h
        | size => exact h
    exact this _ UMap.WF_nil
  generalize (run ([] : List (K × V)) os).1 = m at hw ⊢
  have key : ∀ (m acc : List (K × V)), UMap.WF (acc ++ m) →
      m.foldl (fun acc e => (UMap.emplace acc e.1 (clone e.2)).1) acc =
        acc ++ m.map (fun e => (e.1, clone e.2)) := by
    intro m
    induction m with
    | nil => intro acc _; simp
    | cons e m ih =>
      intro acc h
      have hn : UMap.count acc e.1 = false := by
        rw [UMap.count_eq_false_iff]
        unfold UMap.WF UMap.keys at h
        rw [List.map_append, List.nodup_append] at h
        intro hc
        exact h.2.2 e.1 hc e.1 (by simp) rfl
      rw [List.foldl_cons]
      have h1 : (UMap.emplace acc e.1 (clone e.2)).1 = acc ++ [(e.1, clone e.2)] := by
        simp [UMap.emplace, hn]
      rw [h1, ih]
      · simp
      · unfold UMap.WF UMap.keys at *
        simpa using h
  have : copyFrom clone m = m.map (fun e => (e.1, clone e.2)) := by
    unfold copyFrom; rw [key m [] (by simpa using hw)]; simp
  rw [this]
  clear this key hw
  unfold at_
  have hf : UMap.find? (m.map (fun e => (e.1, clone e.2))) q = (UMap.find? m q).map clone := by
    induction m with
    | nil => rfl
    | cons e m ih =>
      rw [List.map_cons, UMap.find?_cons, UMap.find?_cons, ih]
      split <;> simp
  rw [hf]
  cases UMap.find? m q <;> rfl

/-- A history with a refused insertion, a forced replacement, a missing key and a clear. -/
example : (run [] [.insert "a" 1 false, .insert "a" 2 false, .at_ "a", .insert "a" 3 true, .at_ "a",
    .at_ "b", .size, .clear, .size, .count "a"] : List (String × Nat) × List (Ans Nat)).2 =
    [.bool true, .bool false, .val (.ok 1), .bool true, .val (.ok 3), .val .exn, .nat 1, .unit,
     .nat 0, .bool false] := by decide

/-- Model collections: what was last added (non-null) for a type is found; adding null is refused
and changes nothing. -/
theorem c02_models (m : List (K × V)) (ty q : K) (md : V) :
    (addModel m (some (ty, md))).2 = true ∧
    findModel (addModel m (some (ty, md))).1 q = (if q = ty then some md else findModel m q) ∧
    addModel m none = (m, false) := by
  have hfm : ∀ (m : List (K × V)) q, findModel m q = UMap.find? m q := by
    intro m q
    unfold findModel count
    rw [← UMap.find?_isSome_eq_count]
    cases h : UMap.find? m q <;> simp
  refine ⟨?_, ?_, rfl⟩
  · simp [addModel, insert_snd]
  · rw [hfm, hfm]
    simp [addModel, find?_insert]

example : findModel (addModel [("ctm", 1)] (some ("ctm", 2))).1 "ctm" = some 2 := by decide

end Coll
end Ecad
