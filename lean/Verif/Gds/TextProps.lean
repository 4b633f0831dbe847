import Verif.Gds.RecordProps
/-!
C43: the characters of string records and the types of records, for all bytes.
-/
namespace Ecad.Gds

/-- what a string record says: characters up to the first null character, full stops for those that cannot be printed -/
def textOf (l : List Byte) : List Nat := (l.takeWhile fun x => x ≠ 0).map fun x => if 32 ≤ x.val ∧ x.val ≤ 126 then x.val else 46

/-- the bytes that are negative as signed characters, other than -1 -/
def Negative (x : Byte) : Prop := 128 ≤ x.val ∧ x.val ≤ 254

theorem printable_ok {x : Byte} (h : ¬ Negative x) : printable x = .ok (if 32 ≤ x.val ∧ x.val ≤ 126 then x.val else 46) := by
  unfold Negative at h
  have hx : x.val < 256 := x.isLt
  unfold printable
  by_cases h1 : x.val = 255
  · rw [if_pos h1, if_neg (by omega)]
  · rw [if_neg h1, if_neg (by omega)]
    by_cases h2 : 32 ≤ x.val ∧ x.val ≤ 126
    · rw [if_pos (by omega), if_pos h2]
    · rw [if_neg (by omega), if_neg h2]

theorem printable_ub {x : Byte} (h : Negative x) : printable x = .ub := by
  unfold Negative at h
  unfold printable
  rw [if_neg (by omega), if_pos (by omega)]

theorem str_text {b : Buf} {p : Option Ptr} : ∀ (c : Nat) (l pre : List Byte), l.length = 2 * c → Points b p (pre ++ l) →
    ((∀ x ∈ l.takeWhile fun x => x ≠ 0, ¬ Negative x) → strLoop b p pre.length c = .ok (textOf l)) ∧
    ((∃ x ∈ l.takeWhile fun x => x ≠ 0, Negative x) → strLoop b p pre.length c = .ub) := by
  intro c
  induction c with
  | zero =>
    intro l pre hl _
    rw [List.length_eq_zero_iff.1 (by omega : l.length = 0)]
    exact ⟨fun _ => rfl, by simp⟩
  | succ c ih =>
    intro l pre hl hp
    match l, hl with
    | x :: y :: l, hl =>
      rw [strLoop]
      have d0 := deref_points hp (k := pre.length) (x := x) (by rw [List.getElem?_append_right (le_refl _)]; simp)
      have d1 := deref_points hp (k := pre.length + 1) (x := y) (by rw [List.getElem?_append_right (by omega)]; simp)
      rw [d0, Res.bind_ok, d1, Res.bind_ok]
      have hz : ∀ z : Byte, z.val = 0 ↔ z = 0 := fun z => ⟨fun h => Fin.ext h, fun h => by rw [h]; rfl⟩
      by_cases hx : x = 0
      · rw [if_pos ((hz x).2 hx)]
        subst hx
        simp [textOf]
      · rw [if_neg (fun e => hx ((hz x).1 e))]
        have tx : (x :: y :: l).takeWhile (fun x => decide (x ≠ 0)) = x :: (y :: l).takeWhile (fun x => decide (x ≠ 0)) := by
          rw [List.takeWhile_cons_of_pos (by simpa using hx)]
        by_cases nx : Negative x
        · rw [printable_ub nx]
          refine ⟨fun h => absurd nx (h x (by rw [tx]; exact List.mem_cons_self ..)), fun _ => rfl⟩
        · rw [printable_ok nx, Res.bind_ok]
          by_cases hy : y = 0
          · rw [if_pos ((hz y).2 hy)]
            subst hy
            have ty : ((0 : Byte) :: l).takeWhile (fun x => decide (x ≠ 0)) = [] := by rw [List.takeWhile_cons_of_neg (by simp)]
            refine ⟨fun _ => by unfold textOf; rw [tx, ty]; rfl, ?_⟩
            rintro ⟨z, hzm, hn⟩
            rw [tx, ty, List.mem_singleton] at hzm
            rw [hzm] at hn
            exact absurd hn nx
          · rw [if_neg (fun e => hy ((hz y).1 e))]
            have ty : (y :: l).takeWhile (fun x => decide (x ≠ 0)) = y :: l.takeWhile (fun x => decide (x ≠ 0)) := by
              rw [List.takeWhile_cons_of_pos (by simpa using hy)]
            by_cases ny : Negative y
            · rw [printable_ub ny]
              refine ⟨fun h => absurd ny (h y (by rw [tx, ty]; simp)), fun _ => rfl⟩
            · rw [printable_ok ny, Res.bind_ok]
              have := ih l (pre ++ [x, y]) (by simp only [List.length_cons] at hl; omega) (by simpa using hp)
              have hlen : (pre ++ [x, y]).length = pre.length + 2 := by simp
              rw [hlen] at this
              constructor
              · intro h
                rw [this.1 fun z hzm => h z (by rw [tx, ty]; simp only [List.mem_cons]; exact .inr (.inr hzm)), Res.bind_ok]
                unfold textOf
                rw [tx, ty]
                rfl
              · rintro ⟨z, hzm, hn⟩
                rw [tx, ty, List.mem_cons, List.mem_cons] at hzm
                rcases hzm with rfl | rfl | hzm
                · exact absurd hn nx
                · exact absurd hn ny
                · rw [this.2 ⟨z, hzm, hn⟩]
                  rfl

/-- **C43, strings of any bytes.** A record of a type with a string (expected data 6), whatever its bytes are: the reader gets the characters up to the first null character, full stops
for those that cannot be printed; a byte from 128 to 254 before the first null character is undefined behaviour. -/
theorem c43_text {b : Buf} {p : Option Ptr} {t dt : Byte} {l : List Byte} (ht : expected (recordType t) = 6) (hp : Points b p (t :: dt :: l)) (hl : l.length % 2 = 0) :
    ((∀ x ∈ l.takeWhile fun x => x ≠ 0, ¬ Negative x) → dispatch b p (l.length + 2) = .ok [.str t.val (textOf l)]) ∧
    ((∃ x ∈ l.takeWhile fun x => x ≠ 0, Negative x) → dispatch b p (l.length + 2) = .ub) := by
  have hr : recordType t = t.val := by
    unfold recordType at ht ⊢
    split_ifs with h
    · rw [if_pos h] at ht
      exact absurd ht (by decide)
    · rfl
  have hturn : turns (l.length + 2) 2 = l.length / 2 := by unfold turns; omega
  have h := str_text (l.length / 2) l [t, dt] (by omega) hp
  have d0 := deref_points hp (k := 0) (x := t) rfl
  have d1 := deref_points hp (k := 1) (x := dt) rfl
  unfold dispatch
  rw [d0, Res.bind_ok, d1, Res.bind_ok]
  simp only [ht, hturn]
  rw [hr]
  constructor
  · intro hn
    have h1 : strLoop b p 2 (l.length / 2) = _ := h.1 hn
    rw [h1]
    rfl
  · intro hn
    have h1 : strLoop b p 2 (l.length / 2) = _ := h.2 hn
    rw [h1]
    rfl

/-- the record types are the numbers of the file, those above 0x3c are taken as 0x3c, which has no data that are read -/
theorem c43_types (t : Byte) : (t.val ≤ 0x3c → recordType t = t.val) ∧ (0x3c < t.val → recordType t = 0x3c ∧ expected (recordType t) = 7) := by
  unfold recordType
  constructor
  · intro h; rw [if_neg (by omega)]
  · intro h; rw [if_pos h]; exact ⟨rfl, by decide⟩

/-- example: the library name `a` TAB `b` and what follows a null character; the record type is LIBNAME -/
example : expected (recordType (2 : Byte)) = 6 ∧ textOf [97, 9, 98, 0, 99, 200] = [97, 46, 98] ∧
    (∀ x ∈ ([97, 9, 98, 0, 99, 200] : List Byte).takeWhile fun x => x ≠ 0, ¬ Negative x) := by
  refine ⟨by decide, by decide, ?_⟩
  intro x hx
  have : x ∈ ([97, 9, 98] : List Byte) := hx
  simp only [List.mem_cons, List.not_mem_nil, or_false] at this
  unfold Negative
  rcases this with rfl | rfl | rfl <;> decide

end Ecad.Gds
