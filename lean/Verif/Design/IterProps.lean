import Verif.Design.IterModel
/-!
C17: iterators visit every element once.  C57: `Current` shows what `Next` will return.
A sequence of calls returning `l[0]?`, `l[1]?`, ... returns the elements of `l` in order, each
once, and null ever after.
-/
namespace Ecad.Iter

variable {A : Type}

theorem call_zero {S : Type} (next : S → Option A × S) (s : S) : call next s 0 = (next s).1 := rfl

theorem call_succ {S : Type} (next : S → Option A × S) (s : S) (n : Nat) :
    call next s (n + 1) = call next (next s).2 n := rfl

theorem simple_call (l : List A) (n : Nat) : call Simple.next (Simple.new l) n = l[n]? := by
  induction n generalizing l with
  | zero => cases l <;> rfl
  | succ n ih =>
    rw [call_succ]
    cases l with
    | nil => have := ih []; simpa [Simple.next, Simple.new] using this
    | cons a l => exact ih l

theorem simple_advance (l : List A) (n : Nat) :
    advance Simple.next n (Simple.new l) = Simple.new (l.drop n) := by
  induction n generalizing l with
  | zero => rfl
  | succ n ih =>
    cases l with
    | nil => have := ih []; simpa [advance, Simple.next, Simple.new] using this
    | cons a l => exact ih l

theorem pair_call (l1 l2 : List A) (n : Nat) :
    call Pair.next (Pair.new l1 l2) n = (l1 ++ l2)[n]? := by
  induction n generalizing l1 l2 with
  | zero => cases l1 <;> cases l2 <;> rfl
  | succ n ih =>
    rw [call_succ]
    cases l1 with
    | cons a l1 => exact ih l1 l2
    | nil =>
      cases l2 with
      | nil => exact ih [] []
      | cons b l2 => exact ih [] l2

/-- **C17** for the iterators of single collections and for those walking over all connection
objects or all hierarchy objects: every element once, in container order, then null for ever. -/
theorem c17_iterators (l l1 l2 : List A) (n : Nat) :
    call Simple.next (Simple.new l) n = l[n]? ∧
    call Pair.next (Pair.new l1 l2) n = (l1 ++ l2)[n]? :=
  ⟨simple_call l n, pair_call l1 l2 n⟩

example : call Pair.next (Pair.new [1, 2] [3]) 2 = some 3 ∧
    call Pair.next (Pair.new [1, 2] [3]) 3 = none := by decide

/-- The sub-collections before the first empty one. -/
def beforeEmpty (gs : List (List A)) : List (List A) := gs.takeWhile (fun g => !g.isEmpty)

theorem complex_call_aux (g : List A) (gs : List (List A)) (n : Nat) :
    call Complex.next (⟨g :: gs, g⟩ : Complex A) n = ((beforeEmpty (g :: gs)).flatten)[n]? ∧
    ∀ a r g', call Complex.next (⟨g' :: gs, a :: r⟩ : Complex A) n
      = ((a :: r) ++ (beforeEmpty gs).flatten)[n]? := by
  induction gs generalizing g n with
  | nil =>
    have stuck : ∀ (s : Complex A), s.outer = [] → ∀ k, call Complex.next s k = none := by
      intro s hs k
      have h1 : Complex.next s = (none, s) := by unfold Complex.next; rw [hs]
      induction k with
      | zero => rw [call_zero, h1]
      | succ k ih => rw [call_succ, h1]; exact ih
    have stuck' : ∀ (s : Complex A), s.inner = [] → ∀ k, call Complex.next s k = none := by
      intro s hs k
      have h1 : Complex.next s = (none, s) := by
        unfold Complex.next
        split
        · rfl
        · rw [hs]
      induction k with
      | zero => rw [call_zero, h1]
      | succ k ih => rw [call_succ, h1]; exact ih
    have key : ∀ a r g' n, call Complex.next (⟨[g'], a :: r⟩ : Complex A) n = (a :: r)[n]? := by
      intro a r g' n
      induction n generalizing a r with
      | zero => rfl
      | succ n ih =>
        rw [call_succ]
        cases r with
        | nil => simp [Complex.next, Complex.update, stuck]
        | cons b r => exact ih b r
    constructor
    · cases g with
      | nil => simp [stuck', beforeEmpty]
      | cons a r => simp [beforeEmpty, key]
    · intro a r g'
      simp [beforeEmpty, key]
  | cons h hs ih =>
    have key : ∀ a r g' n, call Complex.next (⟨g' :: h :: hs, a :: r⟩ : Complex A) n
        = ((a :: r) ++ (beforeEmpty (h :: hs)).flatten)[n]? := by
      intro a r g' n
      induction n generalizing a r with
      | zero => rfl
      | succ n ihn =>
        rw [call_succ]
        cases r with
        | nil => exact (ih h n).1
        | cons b r => exact ihn b r
    refine ⟨?_, fun a r g' => key a r g' n⟩
    cases g with
    | nil =>
      have h1 : Complex.next (⟨[] :: h :: hs, []⟩ : Complex A) = (none, ⟨[] :: h :: hs, []⟩) := rfl
      have : ∀ k, call Complex.next (⟨[] :: h :: hs, []⟩ : Complex A) k = none := by
        intro k
        induction k with
        | zero => rfl
        | succ k ih => rw [call_succ, h1]; exact ih
      simp [this, beforeEmpty]
    | cons a r =>
      rw [key]
      simp [beforeEmpty]

/-- What the iterator over a collection of sub-collections really visits: the sub-collections
before the first empty one. -/
theorem c17_complex_visits (gs : List (List A)) (n : Nat) :
    call Complex.next (Complex.new gs) n = ((beforeEmpty gs).flatten)[n]? := by
  cases gs with
  | nil =>
    have h1 : Complex.next (⟨[], []⟩ : Complex A) = (none, ⟨[], []⟩) := rfl
    have : ∀ k, call Complex.next (⟨[], []⟩ : Complex A) k = none := by
      intro k
      induction k with
      | zero => rfl
      | succ k ih => rw [call_succ, h1]; exact ih
    simp [Complex.new, Complex.update, this, beforeEmpty]
  | cons g gs => exact (complex_call_aux g gs n).1

/-- **C17** for collections of sub-collections, when none is empty.  Missing: empty sub-collections,
for which the claim is false (`c17_empty_stops_refuted`). -/
theorem c17_complex_partial (gs : List (List A)) (h : ∀ g ∈ gs, g ≠ []) (n : Nat) :
    call Complex.next (Complex.new gs) n = gs.flatten[n]? := by
  rw [c17_complex_visits]
  have : beforeEmpty gs = gs := by
    unfold beforeEmpty
    clear n
    induction gs with
    | nil => rfl
    | cons g gs ih =>
      have h1 := h g (by simp)
      cases g with
      | nil => exact absurd rfl h1
      | cons a r => simp [ih (fun g hg => h g (by simp [hg]))]
  rw [this]

example : ∀ g ∈ [[1, 2], [3]], g ≠ ([] : List Nat) := by decide

/-- **C17 is false of the code** for collections of sub-collections: nothing behind an empty
sub-collection is ever returned, wherever the empty one is. -/
theorem c17_empty_stops_refuted (gs hs : List (List A)) (a : A)
    (ha : ∀ g ∈ gs, a ∉ g) (hm : ∃ h ∈ hs, a ∈ h) :
    a ∈ (gs ++ [] :: hs).flatten ∧
    ∀ n, call Complex.next (Complex.new (gs ++ [] :: hs)) n ≠ some a := by
  constructor
  · obtain ⟨h, h1, h2⟩ := hm
    simp only [List.mem_flatten, List.mem_append, List.mem_cons]
    exact ⟨h, Or.inr (Or.inr h1), h2⟩
  · intro n hc
    rw [c17_complex_visits] at hc
    have h1 := List.mem_of_getElem? hc
    rw [List.mem_flatten] at h1
    obtain ⟨g, hg, hag⟩ := h1
    have : beforeEmpty (gs ++ [] :: hs) = beforeEmpty gs := by
      unfold beforeEmpty
      clear hg hc ha
      induction gs with
      | nil => simp
      | cons x gs ih => simp [List.takeWhile_cons, ih]
    rw [this] at hg
    exact ha g ((List.takeWhile_prefix _).subset hg) hag

example : ∃ h ∈ [[3], [4]], (4 : Nat) ∈ h := by decide

/-- **C57** for single collections, for collections of sub-collections and for connection objects:
after any number of steps, `Current` shows what `Next` is about to return. -/
theorem c57_current (l l1 l2 : List A) (gs : List (List A)) (n : Nat) :
    (advance Simple.next n (Simple.new l)).current = call Simple.next (Simple.new l) n ∧
    (advance Complex.next n (Complex.new gs)).current = call Complex.next (Complex.new gs) n ∧
    (advance Pair.next n (Pair.new l1 l2)).connCurrent = call Pair.next (Pair.new l1 l2) n := by
  constructor
  · unfold call
    generalize advance Simple.next n (Simple.new l) = s
    unfold Simple.current Simple.next
    cases s.rest <;> rfl
  constructor
  · unfold call
    generalize advance Complex.next n (Complex.new gs) = s
    unfold Complex.current Complex.next
    rcases s with ⟨o, i⟩
    cases o <;> cases i <;> rfl
  · unfold call
    generalize advance Pair.next n (Pair.new l1 l2) = s
    unfold Pair.connCurrent Pair.next Simple.current Simple.next
    rcases s with ⟨⟨f⟩, ⟨g⟩⟩
    cases f <;> cases g <;> rfl

theorem pair_advance (l1 l2 : List A) (n : Nat) :
    advance Pair.next n (Pair.new l1 l2) = Pair.new (l1.drop n) (l2.drop (n - l1.length)) := by
  induction n generalizing l1 l2 with
  | zero => simp [advance]
  | succ n ih =>
    cases l1 with
    | cons a l1 =>
      show advance Pair.next n (Pair.new l1 l2) = _
      rw [ih]; simp
    | nil =>
      cases l2 with
      | nil =>
        show advance Pair.next n (Pair.new [] []) = _
        rw [ih]; simp
      | cons b l2 =>
        show advance Pair.next n (Pair.new [] l2) = _
        rw [ih]; simp

/-- **C57 for hierarchy objects, what holds**: among the cell instances `Current` agrees with
`Next`.  Missing: the components. -/
theorem c57_hierarchy_partial (l1 l2 : List A) (n : Nat) (h : n < l1.length) :
    (advance Pair.next n (Pair.new l1 l2)).hierCurrent = call Pair.next (Pair.new l1 l2) n := by
  rw [pair_call, pair_advance]
  unfold Pair.hierCurrent Pair.new Simple.new Simple.current
  rw [List.drop_eq_getElem_cons h, List.getElem?_append_left h, List.getElem?_eq_getElem h]

/-- **C57 is false of the code** for hierarchy objects: at every component `Current` shows the null
pointer although `Next` returns the component. -/
theorem c57_component_hidden_refuted (l1 l2 : List A) (k : Nat) (h : k < l2.length) :
    (advance Pair.next (l1.length + k) (Pair.new l1 l2)).hierCurrent = none ∧
    call Pair.next (Pair.new l1 l2) (l1.length + k) = some l2[k] := by
  rw [pair_call, pair_advance]
  constructor
  · unfold Pair.hierCurrent Pair.new Simple.new Simple.current
    rw [List.drop_eq_nil_of_le (by omega)]
  · rw [List.getElem?_append_right (by omega)]
    simp [h]

example : (advance Pair.next 1 (Pair.new ["cell"] ["comp"])).hierCurrent = none := by decide

end Ecad.Iter
