import Verif.Basic.SmallModel
import Mathlib.Tactic.Linarith
import Mathlib.Tactic.FieldSimp
import Mathlib.Tactic.Ring
import Mathlib.Algebra.BigOperators.Group.List.Basic
import Mathlib.Algebra.BigOperators.Ring.List
import Mathlib.Data.Rat.Cast.Order
import Mathlib.Algebra.Group.End
/-!
C09 versions, C11 and C12 material properties, C13 transforms, C14 units, C48 uniform boundary
conditions, C49 two-way maps, C56 polynomial properties.
-/
namespace Ecad

/-! ### C09 -/
section Version
open Version

/-- **C09.** For all version numbers with parts below one hundred, decoding the encoding gives the
version back, and the comparison functions compare as versions should: by major number, then by
minor number. -/
theorem c09_version (a b : Nat × Nat) (ha : a.1 < 100 ∧ a.2 < 100) (hb : b.1 < 100 ∧ b.2 < 100) :
    fromInt (toInt a) = a ∧
    (lessThan a b = true ↔ a.1 < b.1 ∨ (a.1 = b.1 ∧ a.2 < b.2)) ∧
    (greaterThan a b = true ↔ b.1 < a.1 ∨ (a.1 = b.1 ∧ b.2 < a.2)) := by
  obtain ⟨a1, a2⟩ := a
  obtain ⟨b1, b2⟩ := b
  refine ⟨?_, ?_, ?_⟩
  · simp only [fromInt, toInt, Prod.mk.injEq] at *
    exact ⟨by omega, by omega⟩
  · unfold lessThan
    rw [decide_eq_true_iff]
    simp only [toInt] at *
    omega
  · unfold greaterThan
    rw [decide_eq_true_iff]
    simp only [toInt] at *
    omega

/-- Every number below ten thousand is the encoding of the version it is decoded to. -/
theorem c09_version_onto (n : Nat) (h : n < 10000) :
    toInt (fromInt n) = n ∧ (fromInt n).1 < 100 ∧ (fromInt n).2 < 100 := by
  simp only [fromInt, toInt]
  omega

example : fromInt (toInt (7, 42)) = (7, 42) ∧ lessThan (1, 99) (2, 0) = true := by decide
end Version

/-! ### C14 -/
section Units
open Units

theorem trunc_int (z : Int) : trunc (z : ℚ) = z := by
  unfold trunc; split <;> simp

theorem trunc_spec (q : ℚ) : |(trunc q : ℚ) - q| < 1 ∧ |(trunc q : ℚ)| ≤ |q| ∧ 0 ≤ (trunc q : ℚ) * q := by
  unfold trunc
  split
  · rename_i h
    have h1 := Int.floor_le q
    have h2 := Int.lt_floor_add_one q
    have h3 : (0 : ℚ) ≤ (⌊q⌋ : ℚ) := by
      have : (0 : Int) ≤ ⌊q⌋ := Int.floor_nonneg.2 h
      exact_mod_cast this
    refine ⟨?_, ?_, mul_nonneg h3 h⟩
    · rw [abs_lt]; constructor <;> linarith
    · rw [abs_of_nonneg h3, abs_of_nonneg h]; exact h1
  · rename_i h
    push Not at h
    have h1 := Int.le_ceil q
    have h2 := Int.ceil_lt_add_one q
    have h3 : (⌈q⌉ : ℚ) ≤ 0 := by
      have : ⌈q⌉ ≤ (0 : Int) := Int.ceil_le.2 (by simpa using h.le)
      exact_mod_cast this
    refine ⟨?_, ?_, mul_nonneg_of_nonpos_of_nonpos h3 h.le⟩
    · rw [abs_lt]; constructor <;> linarith
    · rw [abs_of_nonpos h3, abs_of_nonpos h.le]; linarith

theorem trunc_mono {p q : ℚ} (h : p ≤ q) : trunc p ≤ trunc q := by
  unfold trunc
  split
  · rename_i h0
    rw [if_pos (h0.trans h)]
    exact Int.floor_mono h
  · rename_i h0
    push Not at h0
    split
    · rename_i h1
      have : ⌈p⌉ ≤ (0 : Int) := Int.ceil_le.2 (by simpa using h0.le)
      have : (0 : Int) ≤ ⌊q⌋ := Int.floor_nonneg.2 h1
      omega
    · exact Int.ceil_mono h

/-- **C14.** In exact arithmetic, for every positive unit scale: a coordinate survives the
conversion to user units and back; a length is converted with an error below one database unit,
towards zero; and conversion is monotone in both directions. -/
theorem c14_units (u : CoordUnits) (hu : 0 < u.unit) :
    (∀ c : Int, toCoord u (toUnit u c) = c) ∧
    (∀ v : ℚ, |toUnit u (toCoord u v) - v| < u.unit ∧ |toUnit u (toCoord u v)| ≤ |v| ∧
      0 ≤ toUnit u (toCoord u v) * v) ∧
    (∀ v w : ℚ, v ≤ w → toCoord u v ≤ toCoord u w) ∧
    (∀ c d : ℚ, c < d → toUnit u c < toUnit u d) := by
  refine ⟨?_, ?_, ?_, ?_⟩
  · intro c
    unfold toCoord toUnit scale2Coord
    have : (c : ℚ) * u.unit * (1 / u.unit) = c := by field_simp
    rw [this, trunc_int]
  · intro v
    obtain ⟨h1, h2, h3⟩ := trunc_spec (v * (1 / u.unit))
    unfold toCoord toUnit scale2Coord
    have e : v = v * (1 / u.unit) * u.unit := by field_simp
    refine ⟨?_, ?_, ?_⟩
    · have : (trunc (v * (1 / u.unit)) : ℚ) * u.unit - v
          = ((trunc (v * (1 / u.unit)) : ℚ) - v * (1 / u.unit)) * u.unit := by
        rw [sub_mul, ← e]
      rw [this, abs_mul, abs_of_pos hu]
      nlinarith
    · have h4 : |v| = |v * (1 / u.unit)| * u.unit := by
        conv_lhs => rw [e, abs_mul, abs_of_pos hu]
      rw [abs_mul, abs_of_pos hu, h4]
      exact mul_le_mul_of_nonneg_right h2 hu.le
    · have h4 : (trunc (v * (1 / u.unit)) : ℚ) * u.unit * v
          = (trunc (v * (1 / u.unit)) : ℚ) * (v * (1 / u.unit)) * (u.unit * u.unit) := by
        conv_lhs => rw [e]
        field_simp
      rw [h4]
      exact mul_nonneg h3 (mul_nonneg hu.le hu.le)
  · intro v w h
    unfold toCoord scale2Coord
    exact trunc_mono (mul_le_mul_of_nonneg_right h (by positivity))
  · intro c d h
    unfold toUnit
    exact mul_lt_mul_of_pos_right h hu

/-- **C14** (explicit length units).  The same for conversions naming a unit, and the two kinds of
conversion agree on the user unit the object was made with. -/
theorem c14_units_explicit (user data : ℚ) (h1 : 0 < user) (h2 : 0 < data) :
    (∀ (c : Int) (s : ℚ), 0 < s → toCoordIn (make user data) (toUnitIn (make user data) c s) s = c) ∧
    (∀ v : ℚ, toCoordIn (make user data) v user = toCoord (make user data) v) ∧
    (∀ c : ℚ, toUnitIn (make user data) c user = toUnit (make user data) c) := by
  refine ⟨?_, ?_, ?_⟩
  · intro c s hs
    unfold toCoordIn toUnitIn make
    have : (c : ℚ) * data / s * s / data = c := by field_simp
    simp only [this, trunc_int]
  · intro v
    unfold toCoordIn toCoord scale2Coord make
    congr 1
    field_simp
  · intro c
    unfold toUnitIn toUnit make
    field_simp

/-- Micrometres over nanometres: 1.2345 µm is truncated to 1234 nm. -/
example : (0 : ℚ) < (make (1/1000000) (1/1000000000)).unit ∧
    toCoord (make (1/1000000) (1/1000000000)) (12345/10000) = 1234 := by
  constructor
  · norm_num [make]
  · norm_num [make, toCoord, scale2Coord, trunc]

end Units

/-! ### C11 -/
section Mat
open Material

theorem getProperty_setAll {P : Type} (m : Props P) (s : List (Int × P)) (id : Int) :
    getProperty (setAll m s) id = (getProperty m id).or (UMap.find? s id) := by
  induction s generalizing m with
  | nil => simp [setAll, UMap.find?_nil]
  | cons e es ih =>
    have : setAll m (e :: es) = setAll (setProperty m e.1 e.2) es := rfl
    rw [this, ih, UMap.find?_cons]
    unfold getProperty setProperty
    rw [UMap.find?_emplace']
    cases h : UMap.find? m id with
    | some x =>
      rw [if_neg (by rintro ⟨rfl, h'⟩; rw [h] at h'; cases h')]; simp
    | none =>
      simp only [Option.none_or]
      by_cases he : id = e.1
      · subst he; simp [h]
      · have he' : e.1 ≠ id := fun h => he h.symm
        simp [he, he']

/-- **C11 is false of the code**: once a property has been set, every later setting of it is
ignored, whatever the history. -/
theorem c11_set_ignored_refuted {P : Type} (s s' : List (Int × P)) (id : Int) (p q : P)
    (hfirst : ∀ e ∈ s, e.1 ≠ id) (hne : p ≠ q) :
    getProperty (setProperty (setAll [] (s ++ (id, p) :: s')) id q) id = some p ∧ some p ≠ some q := by
  refine ⟨?_, by simpa using hne⟩
  have h1 : getProperty (setAll [] (s ++ (id, p) :: s')) id = some p := by
    rw [getProperty_setAll, UMap.find?_append, UMap.find?_cons]
    have : UMap.find? s id = none := by
      rw [UMap.find?_eq_none_iff]
      simp only [UMap.keys, List.mem_map, not_exists, not_and]
      intro e he; exact hfirst e he
    simp [this, getProperty, UMap.find?_nil]
  unfold getProperty setProperty at *
  rw [UMap.find?_emplace', h1]; simp

example : ∀ e ∈ [((5 : Int), "a")], e.1 ≠ 7 := by decide

/-- **C11, what holds**: setting a property that has not been set before takes effect, and setting
never disturbs another property.  Missing compared with C11: overwriting an existing property. -/
theorem c11_set_partial {P : Type} (s : List (Int × P)) (id : Int) (p : P) :
    ((∀ e ∈ s, e.1 ≠ id) → getProperty (setProperty (setAll [] s) id p) id = some p) ∧
    (∀ id', id' ≠ id →
      getProperty (setProperty (setAll [] s) id p) id' = getProperty (setAll [] s) id') ∧
    (∀ id', hasProperty (setAll [] s) id' = true ↔ ∃ e ∈ s, e.1 = id') := by
  refine ⟨?_, ?_, ?_⟩
  · intro h
    have h1 : getProperty (setAll [] s) id = none := by
      rw [getProperty_setAll]
      have : UMap.find? s id = none := by
        rw [UMap.find?_eq_none_iff]
        simp only [UMap.keys, List.mem_map, not_exists, not_and]
        intro e he; exact h e he
      simp [this, getProperty, UMap.find?_nil]
    unfold getProperty setProperty at *
    rw [UMap.find?_emplace', h1]; simp
  · intro id' hne
    unfold getProperty setProperty
    rw [UMap.find?_emplace']
    split
    · rename_i h; exact absurd h.1 hne
    · rfl
  · intro id'
    unfold hasProperty
    rw [UMap.count_iff_mem_keys]
    have h := getProperty_setAll [] s id'
    unfold getProperty at h
    have hk : id' ∈ UMap.keys (setAll [] s) ↔ id' ∈ UMap.keys s := by
      have e1 := UMap.find?_eq_none_iff (setAll [] s) id'
      have e2 := UMap.find?_eq_none_iff s id'
      rw [UMap.find?_nil, Option.none_or] at h
      rw [h] at e1
      constructor
      · intro hm; by_contra hc; exact (e1.1 (e2.2 hc)) hm
      · intro hm; by_contra hc; exact (e2.1 (e1.2 hc)) hm
    rw [hk]; simp [UMap.keys]

example : getProperty (setProperty (setAll [] [((5 : Int), "a")]) 7 "b") 7 = some "b" := by decide

/-! ### C12 -/

/-- **C12 is false of the code** for tensors: the anisotropic value of an axis of a 9-component
property is the entry in the first column, not the diagonal entry; and a simple value answers off
the diagonal with the value itself instead of zero. -/
theorem c12_tensor_views_refuted :
    (∀ a b c d e f g h i : ℚ, getAnisotropic [a, b, c, d, e, f, g, h, i] 1 = .ok (some d) ∧
      getTensor [a, b, c, d, e, f, g, h, i] 1 1 = .ok (some e) ∧
      getAnisotropic [a, b, c, d, e, f, g, h, i] 2 = .ok (some g) ∧
      getTensor [a, b, c, d, e, f, g, h, i] 2 2 = .ok (some i)) ∧
    (∃ a b c d e f g h i : ℚ, getAnisotropic [a, b, c, d, e, f, g, h, i] 1 ≠
      getTensor [a, b, c, d, e, f, g, h, i] 1 1) ∧
    (∀ (v : ℚ) (row col : Nat), row < 3 → col < 3 → getTensor [v] row col = .ok (some v)) := by
  refine ⟨?_, ?_, ?_⟩
  · intro a b c d e f g h i
    exact ⟨rfl, rfl, rfl, rfl⟩
  · refine ⟨1, 0, 0, 0, 1, 0, 0, 0, 1, ?_⟩
    decide
  · intro v row col hr hc
    simp only [getTensor, getSimple, Res.at_]
    rw [if_neg (by omega)]
    simp

/-- **C12, what holds**: for properties with 1 or 3 components the anisotropic value of an axis is
the diagonal entry of the tensor, axes out of range are refused by both accessors for every size,
and what has been stored is what is read back.  Missing compared with C12: agreement for 9
components and zero off-diagonal entries for simple values. -/
theorem c12_views_partial {F : Type} (v : List F) :
    (v.length = 1 ∨ v.length = 3 → ∀ row, row < 3 → getAnisotropic v row = getTensor v row row ∧
      ∃ x, getAnisotropic v row = .ok (some x)) ∧
    (∀ row col, 3 ≤ row → getAnisotropic v row = .ok none ∧ getTensor v row col = .ok none ∧
      getTensor v col row = .ok none) ∧
    (v.length = 9 → ∀ row col, row < 3 → col < 3 → ∃ x, v[row * 3 + col]? = some x ∧
      getTensor v row col = .ok (some x)) ∧
    (v.length = 3 → ∀ row, row < 3 → ∃ x, v[row]? = some x ∧ getAnisotropic v row = .ok (some x)) ∧
    (v.length = 1 → ∃ x, v[0]? = some x ∧ getSimple v = .ok (some x)) := by
  refine ⟨?_, ?_, ?_, ?_, ?_⟩
  · intro h row hr
    constructor
    · unfold getTensor
      rw [if_neg (by omega)]
      rcases h with h | h
      · simp only [h, if_true]
        unfold getAnisotropic
        rw [if_neg (by omega), if_pos h]
      · simp [h]
    · unfold getAnisotropic
      rw [if_neg (by omega)]
      rcases h with h | h
      · rw [if_pos h]
        refine ⟨v[0], ?_⟩
        simp [getSimple, Res.at_, List.getElem?_eq_getElem (show 0 < v.length by omega)]
      · rw [if_neg (by omega), if_pos h]
        refine ⟨v[row], ?_⟩
        simp [Res.at_, List.getElem?_eq_getElem (show row < v.length by omega)]
  · intro row col hr
    refine ⟨?_, ?_, ?_⟩
    · simp [getAnisotropic, hr]
    · simp [getTensor, hr]
    · simp [getTensor, hr]
  · intro h row col hr hc
    have hlt : row * 3 + col < v.length := by omega
    refine ⟨v[row * 3 + col], List.getElem?_eq_getElem hlt, ?_⟩
    unfold getTensor
    rw [if_neg (by omega), if_neg (by omega), if_neg (by omega)]
    simp [Res.at_, List.getElem?_eq_getElem hlt]
  · intro h row hr
    have hlt : row < v.length := by omega
    refine ⟨v[row], List.getElem?_eq_getElem hlt, ?_⟩
    unfold getAnisotropic
    rw [if_neg (by omega), if_neg (by omega), if_pos h]
    simp [Res.at_, List.getElem?_eq_getElem hlt]
  · intro h
    have hlt : 0 < v.length := by omega
    refine ⟨v[0], List.getElem?_eq_getElem hlt, ?_⟩
    simp [getSimple, Res.at_, List.getElem?_eq_getElem hlt]

example : getAnisotropic [(1 : ℚ), 2, 3] 2 = getTensor [(1 : ℚ), 2, 3] 2 2 := by decide

/-! ### C56: polynomial properties -/

theorem calcLoop_eq {F : Type} [Semiring F] (x : F) (i : Nat) (v : F) (cs : List F) :
    calcLoop x i v cs = v + (cs.mapIdx (fun k c => x ^ (i + k) * c)).sum := by
  induction cs generalizing i v with
  | nil => simp [calcLoop]
  | cons c cs ih =>
    simp only [calcLoop, ih, List.mapIdx_cons, List.sum_cons, Nat.add_zero]
    rw [add_assoc]
    congr 2
    congr 1
    apply congrArg (fun g => List.mapIdx g cs)
    funext k c
    congr 2
    omega

/-- **C56.** A polynomial property evaluates to the sum of coefficient times power; an isotropic one
has the same value for every axis and every entry; with three coefficient lists the value of an
axis is the polynomial of that axis, and with nine lists an entry is the polynomial of that
entry. -/
theorem c56_polynomial {F : Type} [Semiring F] (x : F) :
    (∀ c cs, calculate (c :: cs) x = .ok ((c :: cs).mapIdx (fun k a => x ^ k * a)).sum) ∧
    (∀ (p : List F) (row col : Nat), polyAnisotropic [p] x row = calculate p x ∧
      polyTensor [p] x row col = calculate p x ∧ polySimple [p] x = calculate p x) ∧
    (∀ (ps : List (List F)) (row col : Nat) (p : List F), ps.length = 3 → ps[row]? = some p →
      polyAnisotropic ps x row = calculate p x ∧ polyTensor ps x row col = calculate p x) ∧
    (∀ (ps : List (List F)) (row col : Nat) (p : List F), ps.length = 9 →
      ps[row * 3 + col]? = some p → polyTensor ps x row col = calculate p x) := by
  refine ⟨?_, ?_, ?_, ?_⟩
  · intro c cs
    simp only [calculate, calcLoop_eq, List.mapIdx_cons, List.sum_cons, pow_zero, one_mul]
    congr 3
    apply congrArg (fun g => List.mapIdx g cs)
    funext k a
    rw [Nat.add_comm]
  · intro p row col
    exact ⟨rfl, rfl, rfl⟩
  · intro ps row col p h hp
    constructor
    · simp [polyAnisotropic, h, Res.at_, hp]
    · simp [polyTensor, h, Res.at_, hp]
  · intro ps row col p h hp
    simp [polyTensor, h, Res.at_, hp]

example : calculate [(1 : ℚ), 2, 3] 10 = .ok 321 := by
  norm_num [calculate, calcLoop]

end Mat

/-! ### C48 -/
section BC

variable {O B : Type} [DecidableEq O]

/-- **C48 is false of the code**: after a boundary condition has been set for an orientation, later
settings for it are ignored. -/
theorem c48_set_ignored_refuted (isValid : B → Bool) (m : List (O × B)) (o : O) (b b' : B)
    (hfree : UMap.find? m o = none) :
    UniformBC.get isValid (UniformBC.set (UniformBC.set m o b) o b') o = if isValid b then some b else none := by
  unfold UniformBC.get UniformBC.set
  rw [UMap.find?_emplace', UMap.find?_emplace', hfree]
  simp

/-- A valid second setting that is not what is read back. -/
example : UniformBC.get (fun _ : Nat => true) (UniformBC.set (UniformBC.set [] "top" 1) "top" 2) "top" = some 1 := by decide

/-- **C48, what holds**: the first setting takes effect (and is hidden when invalid), and other
orientations are not disturbed.  Missing: changing a condition already set. -/
theorem c48_set_partial (isValid : B → Bool) (m : List (O × B)) (o : O) (b : B) :
    (UMap.find? m o = none → UniformBC.get isValid (UniformBC.set m o b) o = if isValid b then some b else none) ∧
    (∀ o', o' ≠ o → UniformBC.get isValid (UniformBC.set m o b) o' = UniformBC.get isValid m o') := by
  constructor
  · intro h
    unfold UniformBC.get UniformBC.set
    rw [UMap.find?_emplace', h]; simp
  · intro o' hne
    unfold UniformBC.get UniformBC.set
    rw [UMap.find?_emplace', if_neg (fun h => hne h.1)]

example : UMap.find? ([("bot", 3)] : List (String × Nat)) "top" = none := by decide
end BC

/-! ### C49 -/
section BiMap
open BiDir

/-- **C49 is false of the code**: two left keys given the same right key leave the second without a
matching reverse lookup. -/
theorem c49_reverse_refuted :
    getRight (build [("a", 1), ("b", 1)]) "b" = .ok 1 ∧
    getLeft (build [("a", 1), ("b", 1)]) 1 = .ok "a" := by decide

variable {L R : Type} [DecidableEq L] [DecidableEq R]

theorem build_maps (s : List (L × R)) (m : Map L R) :
    (s.foldl (fun m e => BiDir.insert m e.1 e.2) m) =
      ⟨s.foldl (fun m e => (UMap.emplace m e.1 e.2).1) m.forward,
       s.foldl (fun m e => (UMap.emplace m e.2 e.1).1) m.backward⟩ := by
  induction s generalizing m with
  | nil => rfl
  | cons e es ih => simp only [List.foldl_cons]; rw [ih]; rfl

theorem find_foldl_emplace {K V A : Type} [DecidableEq K] (f : A → K × V) (s : List A)
    (m : List (K × V)) (k : K) :
    UMap.find? (s.foldl (fun m e => (UMap.emplace m (f e).1 (f e).2).1) m) k =
      (UMap.find? m k).or (UMap.find? (s.map f) k) := by
  induction s generalizing m with
  | nil => simp [UMap.find?_nil]
  | cons e es ih =>
    simp only [List.foldl_cons, List.map_cons]
    rw [ih, UMap.find?_emplace', UMap.find?_cons]
    cases h : UMap.find? m k with
    | some x =>
      rw [if_neg (by rintro ⟨rfl, h'⟩; rw [h] at h'; cases h')]; simp
    | none =>
      by_cases he : k = (f e).1
      · subst he; simp [h]
      · have he' : (f e).1 ≠ k := fun h => he h.symm
        simp [he, he']

theorem mem_of_find_map {K V : Type} [DecidableEq K] {s : List (K × V)} {k : K} {v : V}
    (h : UMap.find? s k = some v) : (k, v) ∈ s := UMap.find?_mem h

/-- **C49, what holds**: when the inserted pairs relate every left key to one right key and vice
versa, lookups are exactly the inserted pairs in both directions, hence inverse to each other.
Missing: insertions that reuse a key with another partner (`c49_reverse_refuted`). -/
theorem c49_reverse_partial (s : List (L × R))
    (hone : ∀ l r l' r', (l, r) ∈ s → (l', r') ∈ s → (l = l' ↔ r = r')) (l : L) (r : R) :
    (getRight (build s) l = .ok r ↔ (l, r) ∈ s) ∧ (getLeft (build s) r = .ok l ↔ (l, r) ∈ s) := by
  have hf : UMap.find? (build s).forward l = UMap.find? s l := by
    unfold build
    rw [build_maps]
    have := find_foldl_emplace (fun e : L × R => (e.1, e.2)) s [] l
    simpa [UMap.find?_nil] using this
  have hb : UMap.find? (build s).backward r = UMap.find? (s.map Prod.swap) r := by
    unfold build
    rw [build_maps]
    have := find_foldl_emplace (Prod.swap : L × R → R × L) s [] r
    simpa [UMap.find?_nil] using this
  constructor
  · unfold getRight
    rw [hf]
    constructor
    · intro h
      cases hx : UMap.find? s l with
      | none => rw [hx] at h; simp at h
      | some r' =>
        rw [hx] at h
        simp only [Res.ok.injEq] at h
        subst h; exact mem_of_find_map hx
    · intro h
      cases hx : UMap.find? s l with
      | none =>
        exact absurd (List.mem_map.2 ⟨_, h, rfl⟩) ((UMap.find?_eq_none_iff s l).1 hx)
      | some r' =>
        have := (hone l r l r' h (mem_of_find_map hx)).1 rfl
        simp [this]
  · unfold getLeft
    rw [hb]
    constructor
    · intro h
      cases hx : UMap.find? (s.map Prod.swap) r with
      | none => rw [hx] at h; simp at h
      | some l' =>
        rw [hx] at h
        simp only [Res.ok.injEq] at h
        subst h
        have := mem_of_find_map hx
        simpa [Prod.swap] using this
    · intro h
      cases hx : UMap.find? (s.map Prod.swap) r with
      | none =>
        refine absurd (List.mem_map.2 ⟨(r, l), ?_, rfl⟩) ((UMap.find?_eq_none_iff _ r).1 hx)
        simpa [Prod.swap] using h
      | some l' =>
        have hm : (l', r) ∈ s := by
          have := mem_of_find_map hx
          simpa [Prod.swap] using this
        have := (hone l' r l r hm h).2 rfl
        simp [this]

example : ∀ l r l' r', (l, r) ∈ [("a", 1), ("b", 2)] → (l', r') ∈ [("a", 1), ("b", 2)] →
    (l = l' ↔ r = r') := by
  intro l r l' r' h1 h2
  simp only [List.mem_cons, Prod.mk.injEq, List.not_mem_nil, or_false] at h1 h2
  rcases h1 with ⟨rfl, rfl⟩ | ⟨rfl, rfl⟩ <;> rcases h2 with ⟨rfl, rfl⟩ | ⟨rfl, rfl⟩ <;> simp
end BiMap

/-! ### C13 -/
section Transform
open Trans

/-- The ways to make a transform: every setter edits the components of the last step by some
function, `append` composes with another transform, `read` asks for the matrix. -/
inductive Hist (F : Type) where
  | new
  | set (h : Hist F) (f : Data F → Data F)
  | append (h o : Hist F)
  | read (h : Hist F)
  | copy (h : Hist F)

/-- the same history without the reads -/
def Hist.strip {F : Type} : Hist F → Hist F
  | .new => .new
  | .set h f => .set h.strip f
  | .append h o => .append h.strip o.strip
  | .read h => h.strip
  | .copy h => .copy h.strip

variable {F M : Type} [Zero F] [One F] [DecidableEq F] [Kit F M]

/-- running a history on the modelled class -/
def Hist.run (M : Type) [Kit F M] : Hist F → Res (T F M)
  | .new => .ok (T.new F M)
  | .set h f => (h.run M).bind fun t => t.set f
  | .append h o => (h.run M).bind fun t => (o.run M).bind fun u => .ok (t.append u).1
  | .read h => (h.run M).bind fun t => .ok t.get.1
  | .copy h => (h.run M).bind fun t => .ok t.copy

/-- the matrix reported after a history -/
def Hist.report (M : Type) [Kit F M] (h : Hist F) : Res M := (h.run M).bind fun t => .ok t.get.2

/-- read since the last component was set -/
def Hist.wasRead {F : Type} : Hist F → Prop
  | .new => False
  | .set _ _ => False
  | .append h _ => h.wasRead
  | .read _ => True
  | .copy h => h.wasRead

/-- no composition onto a transform that was read since a component of it was last set -/
def Hist.NoLateAppend {F : Type} : Hist F → Prop
  | .new => True
  | .set h _ => h.NoLateAppend
  | .append h o => ¬ h.wasRead ∧ h.NoLateAppend ∧ o.NoLateAppend
  | .read h => h.NoLateAppend
  | .copy h => h.NoLateAppend

/-- Histories in which a composition onto a transform that was read is followed by neither a
component setting nor a composition of the result onto a transform that was not read. -/
def Hist.Calm {F : Type} : Hist F → Prop
  | .new => True
  | .set h _ => h.NoLateAppend
  | .append h o => (h.wasRead ∧ h.Calm ∧ o.Calm) ∨
      (¬ h.wasRead ∧ h.NoLateAppend ∧ o.NoLateAppend)
  | .read h => h.Calm
  | .copy h => h.Calm

omit [Kit F M] in
theorem Data.matrix_of_not_transformed [Kit F M] (d : Data F) (h : d.isTransformed = false) :
    d.matrix M = 1 := by
  simp only [Data.isTransformed, Bool.or_eq_false_iff, decide_eq_false_iff_not, ne_eq,
    not_not, Option.isSome_eq_false_iff, Option.isNone_iff_eq_none] at h
  obtain ⟨⟨⟨h1, h2⟩, h3⟩, h4⟩ := h
  simp [Data.matrix, h1, h2, h3, h4]

theorem product_foldl (s : List (Data F)) (m : M) :
    s.foldl (fun t d => if !d.isTransformed then t else d.matrix M * t) m = product M s * m := by
  unfold product
  induction s generalizing m with
  | nil => simp
  | cons d s ih =>
    simp only [List.foldl_cons]
    rw [ih]
    conv_rhs => rw [ih]
    cases h : d.isTransformed <;> simp [mul_assoc]

theorem product_append (s s' : List (Data F)) :
    product M (s ++ s') = product M s' * product M s := by
  unfold product
  rw [List.foldl_append, product_foldl]
  rfl

theorem product_filter (s : List (Data F)) :
    product M (s.filter Data.isTransformed) = product M s := by
  unfold product
  generalize (1 : M) = m
  induction s generalizing m with
  | nil => rfl
  | cons d s ih =>
    rw [List.filter_cons]
    cases h : d.isTransformed
    · simp only [Bool.false_eq_true, if_false, List.foldl_cons, h, Bool.not_false, if_true]
      exact ih m
    · simp only [if_true, List.foldl_cons, h, Bool.not_true, Bool.false_eq_true, if_false]
      exact ih _

theorem editLast_ok {A : Type} (f : A → A) (s : List A) (h : s ≠ []) :
    ∃ s', editLast f s = .ok s' ∧ s' ≠ [] := by
  induction s with
  | nil => exact absurd rfl h
  | cons a s ih =>
    cases s with
    | nil => exact ⟨[f a], rfl, by simp⟩
    | cons b r =>
      obtain ⟨s', h1, _⟩ := ih (by simp)
      exact ⟨a :: s', by simp [editLast, h1], by simp⟩

/-- no history runs into undefined behaviour: the list of steps is never empty -/
theorem Hist.run_ok (h : Hist F) : ∃ t : T F M, h.run M = .ok t ∧ t.seq ≠ [] ∧
    (t.cache.isSome ↔ h.wasRead) := by
  induction h with
  | new => exact ⟨_, rfl, by simp [T.new], by simp [T.new, wasRead]⟩
  | set h f ih =>
    obtain ⟨t, h1, h2, _⟩ := ih
    obtain ⟨s', h3, h4⟩ := editLast_ok f t.seq h2
    exact ⟨⟨none, s'⟩, by simp [run, h1, T.set, h3], h4, by simp [wasRead]⟩
  | append h o ih io =>
    obtain ⟨t, h1, h2, h3⟩ := ih
    obtain ⟨u, h4, _, _⟩ := io
    refine ⟨(t.append u).1, by simp [run, h1, h4], ?_, ?_⟩
    · unfold T.append
      split
      · exact h2
      · simp [h2]
    · unfold T.append
      split
      · rename_i m hm; rw [hm] at h3; simpa [wasRead] using h3
      · rename_i hm; rw [hm] at h3; simpa [wasRead] using h3
  | read h ih =>
    obtain ⟨t, h1, h2, _⟩ := ih
    refine ⟨t.get.1, by simp [run, h1], ?_, ?_⟩
    · unfold T.get; split <;> exact h2
    · unfold T.get
      split
      · rename_i m hm; simp [hm, wasRead]
      · simp [wasRead]
  | copy h ih =>
    obtain ⟨t, h1, h2, h3⟩ := ih
    exact ⟨t.copy, by simp [run, h1], h2, h3⟩

theorem Hist.strip_cache (h : Hist F) : ¬ h.strip.wasRead := by
  induction h with
  | new => simp [strip, wasRead]
  | set h f ih => simp [strip, wasRead]
  | append h o ih io => simpa [strip, wasRead] using ih
  | read h ih => simpa [strip] using ih
  | copy h ih => simpa [strip, wasRead] using ih

/-- Without late compositions the recorded steps do not depend on the reads, and a stored matrix is
the product of the steps. -/
theorem Hist.noLate_seq (h : Hist F) (hc : h.NoLateAppend) (t t' : T F M)
    (ht : h.run M = .ok t) (ht' : h.strip.run M = .ok t') :
    t.seq = t'.seq ∧ (∀ m, t.cache = some m → m = product M t.seq) := by
  induction h generalizing t t' with
  | new =>
    simp only [run, strip, Res.ok.injEq] at ht ht'
    subst ht; subst ht'; simp [T.new]
  | set h f ih =>
    obtain ⟨a, ha, _, _⟩ := Hist.run_ok (M := M) h
    obtain ⟨b, hb, _, _⟩ := Hist.run_ok (M := M) h.strip
    have := ih hc a b ha hb
    simp only [run, strip, ha, hb, Res.bind_ok, T.set, this.1] at ht ht'
    cases he : editLast f b.seq with
    | ok s =>
      rw [he] at ht ht'
      simp only [Res.bind_ok, Res.ok.injEq] at ht ht'
      subst ht; subst ht'; simp
    | ub => rw [he] at ht; cases ht
    | exn => rw [he] at ht; cases ht
  | append h o ih io =>
    obtain ⟨a, ha, _, hra⟩ := Hist.run_ok (M := M) h
    obtain ⟨b, hb, _, hrb⟩ := Hist.run_ok (M := M) h.strip
    obtain ⟨c, hcc, _, _⟩ := Hist.run_ok (M := M) o
    obtain ⟨d, hd, _, _⟩ := Hist.run_ok (M := M) o.strip
    obtain ⟨hc1, hc2, hc3⟩ := hc
    have i1 := ih hc2 a b ha hb
    have i2 := io hc3 c d hcc hd
    have ca : a.cache = none := by
      cases hx : a.cache with
      | none => rfl
      | some m => rw [hx] at hra; exact absurd (hra.1 rfl) hc1
    have cb : b.cache = none := by
      cases hx : b.cache with
      | none => rfl
      | some m => rw [hx] at hrb; exact absurd (hrb.1 rfl) h.strip_cache
    simp only [run, strip, ha, hb, hcc, hd, Res.bind_ok, T.append, ca, cb, Res.ok.injEq] at ht ht'
    subst ht; subst ht'
    simp [i1.1, i2.1]
  | read h ih =>
    obtain ⟨a, ha, _, _⟩ := Hist.run_ok (M := M) h
    simp only [strip] at ht'
    have i1 := ih hc a t' ha ht'
    simp only [run, ha, Res.bind_ok, T.get, Res.ok.injEq] at ht
    cases hx : a.cache with
    | none =>
      rw [hx] at ht
      subst ht
      refine ⟨i1.1, ?_⟩
      intro m hm; simpa using hm.symm
    | some m =>
      rw [hx] at ht
      subst ht
      exact i1
  | copy h ih =>
    obtain ⟨a, ha, _, _⟩ := Hist.run_ok (M := M) h
    obtain ⟨b, hb, _, _⟩ := Hist.run_ok (M := M) h.strip
    have i1 := ih hc a b ha hb
    simp only [run, strip, ha, hb, Res.bind_ok, Res.ok.injEq] at ht ht'
    subst ht; subst ht'
    exact i1

theorem Hist.report_ok (h : Hist F) {t : T F M} (ht : h.run M = .ok t) :
    h.report M = .ok t.get.2 := by simp [report, ht]

theorem Hist.strip_get (h : Hist F) {t : T F M} (ht : h.strip.run M = .ok t) :
    t.cache = none ∧ t.get.2 = product M t.seq := by
  obtain ⟨b, hb, _, hrb⟩ := Hist.run_ok (M := M) h.strip
  have : b = t := by rw [ht] at hb; simpa using hb.symm
  subst this
  have : b.cache = none := by
    cases hx : b.cache with
    | none => rfl
    | some m => rw [hx] at hrb; exact absurd (hrb.1 rfl) h.strip_cache
  exact ⟨this, by simp [T.get, this]⟩

theorem Hist.noLate_report (h : Hist F) (hc : h.NoLateAppend) :
    h.report M = h.strip.report M := by
  obtain ⟨a, ha, _, _⟩ := Hist.run_ok (M := M) h
  obtain ⟨b, hb, _, _⟩ := Hist.run_ok (M := M) h.strip
  rw [report_ok h ha, report_ok _ hb, (strip_get h hb).2]
  have := noLate_seq h hc a b ha hb
  unfold T.get
  cases hx : a.cache with
  | none => simp [this.1]
  | some m => simp [this.2 m hx, this.1]

/-- **C13, what holds**: in a history where nothing is set after a composition onto a transform
that had already been read (and such a composition is not itself composed onto an unread
transform), the reported matrix is the one of the same history without any read.  Missing: the
remaining histories, for which the claim is false (`c13_reads_matter_refuted`). -/
theorem c13_reads_partial (h : Hist F) (hc : h.Calm) : h.report M = h.strip.report M := by
  induction h with
  | new => rfl
  | set h f ih => exact Hist.noLate_report _ hc
  | append h o ih io =>
    rcases hc with ⟨h1, h2, h3⟩ | hn
    · have i1 := ih h2
      have i2 := io h3
      obtain ⟨a, ha, _, hra⟩ := Hist.run_ok (M := M) h
      obtain ⟨b, hb, _, hrb⟩ := Hist.run_ok (M := M) h.strip
      obtain ⟨c, hcc, _, _⟩ := Hist.run_ok (M := M) o
      obtain ⟨d, hd, _, _⟩ := Hist.run_ok (M := M) o.strip
      obtain ⟨cb, gb⟩ := Hist.strip_get h hb
      obtain ⟨_, gd⟩ := Hist.strip_get o hd
      rw [Hist.report_ok _ ha, Hist.report_ok _ hb, gb] at i1
      rw [Hist.report_ok _ hcc, Hist.report_ok _ hd, gd] at i2
      simp only [Res.ok.injEq] at i1 i2
      cases hx : a.cache with
      | none => rw [hx] at hra; exact absurd (hra.2 h1) (by simp)
      | some m =>
        have : a.get.2 = m := by simp [T.get, hx]
        rw [this] at i1
        have e1 : (Hist.append h o).run M = .ok (a.append c).1 := by simp [Hist.run, ha, hcc]
        have e2 : (Hist.append h o).strip.run M = .ok (b.append d).1 := by
          simp [Hist.run, Hist.strip, hb, hd]
        rw [Hist.report_ok _ e1, Hist.report_ok _ e2]
        simp only [T.append, hx, cb, T.get] at *
        rw [product_append, product_filter, i2, i1]
    · exact Hist.noLate_report _ hn
  | read h ih =>
    obtain ⟨a, ha, _, _⟩ := Hist.run_ok (M := M) h
    have i1 := ih hc
    show _ = h.strip.report M
    rw [← i1, Hist.report_ok _ ha]
    have e1 : (Hist.read h).run M = .ok a.get.1 := by simp [Hist.run, ha]
    rw [Hist.report_ok _ e1]
    unfold T.get
    cases hx : a.cache <;> simp [hx]
  | copy h ih =>
    obtain ⟨a, ha, _, _⟩ := Hist.run_ok (M := M) h
    obtain ⟨b, hb, _, _⟩ := Hist.run_ok (M := M) h.strip
    have i1 := ih hc
    rw [Hist.report_ok _ ha, Hist.report_ok _ hb] at i1
    have e1 : (Hist.copy h).run M = .ok a.copy := by simp [Hist.run, ha]
    have e2 : (Hist.copy h).strip.run M = .ok b.copy := by simp [Hist.run, Hist.strip, hb]
    rw [Hist.report_ok _ e1, Hist.report_ok _ e2]
    exact i1

/-- **C13** (always true part).  For every history: reading is repeatable and copies report the
matrix of their original. -/
theorem c13_copy_and_repeat (h : Hist F) :
    h.copy.report M = h.report M ∧ h.read.report M = h.report M ∧ ∃ m, h.report M = .ok m := by
  obtain ⟨a, ha, _, _⟩ := Hist.run_ok (M := M) h
  refine ⟨?_, ?_, _, Hist.report_ok _ ha⟩
  · have e1 : (Hist.copy h).run M = .ok a.copy := by simp [Hist.run, ha]
    rw [Hist.report_ok _ e1, Hist.report_ok _ ha]; rfl
  · have e1 : (Hist.read h).run M = .ok a.get.1 := by simp [Hist.run, ha]
    rw [Hist.report_ok _ e1, Hist.report_ok _ ha]
    unfold T.get
    cases hx : a.cache <;> simp [hx]

/-- **C13** (which matrix is reported).  A transform with the given components scales first, then
rotates, mirrors and shifts, provided the library makes the identity from trivial components; and
composing unread transforms multiplies their matrices, the appended one applied last. -/
theorem c13_matrix (d : Data F) (h o : Hist F) (hs : Kit.scaleT (1 : F) = (1 : M))
    (hr : Kit.rotateT (0 : F) = (1 : M)) (ho : Kit.shiftT ((0, 0) : F × F) = (1 : M)) :
    (Hist.set .new fun _ => d).report M = .ok (Kit.shiftT d.offset *
      ((d.mirror.map (Kit.mirrorT F)).getD 1 * (Kit.rotateT d.rotation * Kit.scaleT d.scale))) ∧
    ∃ a b : M, h.strip.report M = .ok a ∧ o.strip.report M = .ok b ∧
      (Hist.append h.strip o.strip).report M = .ok (b * a) := by
  constructor
  · have key : d.matrix M = Kit.shiftT d.offset *
        ((d.mirror.map (Kit.mirrorT F)).getD 1 * (Kit.rotateT d.rotation * Kit.scaleT d.scale)) := by
      have e1 : (if d.scale ≠ 1 then Kit.scaleT d.scale * (1 : M) else 1) = Kit.scaleT d.scale := by
        split
        · rw [mul_one]
        · rename_i h; rw [not_not.1 h, hs]
      have e2 : ∀ t : M, (if d.rotation ≠ 0 then Kit.rotateT d.rotation * t else t) =
          Kit.rotateT d.rotation * t := by
        intro t
        split
        · rfl
        · rename_i h; rw [not_not.1 h, hr, one_mul]
      have e4 : ∀ t : M, (if d.offset ≠ (0, 0) then Kit.shiftT d.offset * t else t) =
          Kit.shiftT d.offset * t := by
        intro t
        split
        · rfl
        · rename_i h; rw [not_not.1 h, ho, one_mul]
      unfold Data.matrix
      simp only [e1, e2, e4]
      cases d.mirror <;> simp
    have run : (Hist.set .new fun _ => d).run M = .ok ⟨none, [d]⟩ := rfl
    rw [Hist.report_ok _ run, ← key]
    show Res.ok (product M [d]) = _
    cases hd : d.isTransformed
    · rw [Data.matrix_of_not_transformed d hd]; simp [product, hd]
    · simp [product, hd]
  · obtain ⟨a, ha, _, _⟩ := Hist.run_ok (M := M) h.strip
    obtain ⟨b, hb, _, _⟩ := Hist.run_ok (M := M) o.strip
    obtain ⟨ca, ga⟩ := Hist.strip_get h ha
    obtain ⟨_, gb⟩ := Hist.strip_get o hb
    refine ⟨_, _, Hist.report_ok _ ha, Hist.report_ok _ hb, ?_⟩
    have e : (Hist.append h.strip o.strip).run M = .ok (a.append b).1 := by simp [Hist.run, ha, hb]
    rw [Hist.report_ok _ e, ga, gb]
    unfold T.append
    rw [ca]
    simp only [T.get, product_append, product_filter]

/-- **C13 is false of the code**: read a transform, compose it with a shift, set its scale to what
it already is: the shift is lost, whereas it is kept when the transform had not been read.  Also
lost is a composition onto a read transform that is then composed onto an unread one.  This holds
for every matrix library in which the shift is not the identity. -/
theorem c13_reads_matter_refuted (v : F × F) (hv : v ≠ (0, 0)) (hM : (Kit.shiftT v : M) ≠ 1) :
    let shift : Hist F := .set .new (fun d => { d with offset := v })
    let keep : Data F → Data F := fun d => { d with scale := d.scale }
    let h : Hist F := .set (.append (.read .new) shift) keep
    let g : Hist F := .append .new (.append (.read .new) shift)
    (h.report M = .ok 1 ∧ h.strip.report M = .ok (Kit.shiftT v)) ∧
    (g.report M = .ok 1 ∧ g.strip.report M = .ok (Kit.shiftT v)) ∧
    h.report M ≠ h.strip.report M ∧ g.report M ≠ g.strip.report M := by
  have key : ∀ a b : M, a = 1 → b = Kit.shiftT v → (Res.ok a ≠ Res.ok b) := by
    intro a b ha hb h
    simp only [Res.ok.injEq] at h
    exact hM (by rw [← hb, ← h, ha])
  intro shift keep h g
  have h1 : h.report M = .ok 1 := by
    simp [h, shift, keep, Hist.report, Hist.run, T.new, T.set, T.get, T.append, editLast, product,
      Data.isTransformed, Data.matrix, Data.default]
  have h2 : h.strip.report M = .ok (Kit.shiftT v) := by
    simp [h, shift, keep, Hist.report, Hist.run, Hist.strip, T.new, T.set, T.get, T.append,
      editLast, product, Data.isTransformed, Data.matrix, Data.default, hv]
  have g1 : g.report M = .ok 1 := by
    simp [g, shift, Hist.report, Hist.run, T.new, T.set, T.get, T.append, editLast, product,
      Data.isTransformed, Data.matrix, Data.default]
  have g2 : g.strip.report M = .ok (Kit.shiftT v) := by
    simp [g, shift, Hist.report, Hist.run, Hist.strip, T.new, T.set, T.get, T.append,
      editLast, product, Data.isTransformed, Data.matrix, Data.default, hv]
  refine ⟨⟨h1, h2⟩, ⟨g1, g2⟩, ?_, ?_⟩
  · rw [h1, h2]; exact key _ _ rfl rfl
  · rw [g1, g2]; exact key _ _ rfl rfl

/-- One-dimensional affine maps `x ↦ a x + b` as a stand-in for the matrices. -/
def lineKit : Kit ℚ (Function.End ℚ) where
  scaleT s := fun x => s * x
  rotateT r := fun x => x + r
  mirrorT _ := fun x => -x
  shiftT v := fun x => x + v.1

/-- The hypothesis of the refutation can be met. -/
example : (lineKit.shiftT (1, 0) : Function.End ℚ) ≠ 1 := by
  intro h
  have h0 : (0 : ℚ) + 1 = 0 := congrFun h 0
  norm_num at h0

/-- The hypotheses of `c13_matrix` can be met. -/
example : (lineKit.scaleT 1 : Function.End ℚ) = 1 ∧ (lineKit.rotateT 0 : Function.End ℚ) = 1 ∧
    (lineKit.shiftT (0, 0) : Function.End ℚ) = 1 :=
  ⟨funext fun x => one_mul x, funext fun x => add_zero x, funext fun x => add_zero x⟩

/-- A calm history with reads, settings, compositions and a copy. -/
example (f g : Data ℚ → Data ℚ) :
    (Hist.append (.read (.append (.set (.read .new) f) (.copy (.read (.set .new g)))))
      (.read .new)).Calm := by
  refine Or.inl ⟨trivial, Or.inr ⟨fun h => h, trivial, trivial⟩, trivial⟩

end Transform
end Ecad
