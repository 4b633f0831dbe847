import Verif.Gds.ParserModel
import Mathlib.Data.List.Basic
import Mathlib.Tactic.Linarith
/-!
C42: reading through the buffer.
-/
namespace Ecad.Gds

/-- The buffer and the rest of the stream together hold the bytes `s`. -/
def Holds (b : Buf) (s : List Byte) : Prop :=
  ∃ l : List Byte, b.live = l.map some ∧ b.ptr + b.len ≤ b.mem.length ∧ s = l ++ b.rest

/-- Pointer `p` points to the bytes `c`. -/
def Points (b : Buf) (p : Option Ptr) (c : List Byte) : Prop :=
  ∃ q, p = some q ∧ q.gen = b.gen ∧ (b.mem.drop q.off).take c.length = c.map some

/-- sizes for which 64 bit numbers suffice -/
def CapOk (b : Buf) : Prop := 1 ≤ b.mem.length ∧ b.mem.length < 2 ^ 63

theorem grow_spec (f : Nat) : ∀ cap n : Nat, 1 ≤ cap → cap < 2 ^ 63 → n ≤ 2 ^ 62 → n ≤ cap * 2 ^ f →
    ∃ c, grow (f + 1) cap n = some c ∧ n ≤ c ∧ cap ≤ c ∧ c < 2 ^ 63 := by
  induction f with
  | zero =>
    intro cap n h1 h2 h3 h4
    rw [grow, if_neg (by simpa using h4)]
    exact ⟨cap, rfl, by simpa using h4, le_refl _, h2⟩
  | succ f ih =>
    intro cap n h1 h2 h3 h4
    rw [grow]
    by_cases h : cap < n
    · rw [if_pos h]
      have hm : cap * 2 % 2 ^ 64 = cap * 2 := Nat.mod_eq_of_lt (by omega)
      rw [hm]
      obtain ⟨c, g1, g2, g3, g4⟩ := ih (cap * 2) n (by omega) (by omega) h3 (by rw [pow_succ] at h4; nlinarith)
      exact ⟨c, g1, g2, by omega, g4⟩
    · rw [if_neg h]
      exact ⟨cap, rfl, by omega, le_refl _, h2⟩

theorem live_length {b : Buf} {l : List Byte} (h : b.live = l.map some) (h2 : b.ptr + b.len ≤ b.mem.length) :
    l.length = b.len := by
  have := congrArg List.length h
  unfold Buf.live at this
  simp at this
  omega

/-- making room keeps the pending bytes at the front and gives enough of it -/
theorem room_spec (fuel : Nat) (hf : 64 ≤ fuel) (b : Buf) (hc : CapOk b) (n : Nat) (hn : n ≤ 2 ^ 62) (l : List Byte)
    (hl : b.live = l.map some) (hp : b.ptr + b.len ≤ b.mem.length) :
    ∃ b', room fuel b n = some b' ∧ b'.len = b.len ∧ b'.rest = b.rest ∧ b'.mem.take b'.len = l.map some ∧
      n ≤ b'.mem.length ∧ b'.len ≤ b'.mem.length ∧ CapOk b' := by
  have hlen := live_length hl hp
  unfold room
  have hm : n * 2 % 2 ^ 64 = n * 2 := Nat.mod_eq_of_lt (by omega)
  rw [hm]
  by_cases h : b.mem.length < n * 2
  · rw [if_pos h]
    obtain ⟨f, rfl⟩ : ∃ f, fuel = f + 1 := ⟨fuel - 1, by omega⟩
    obtain ⟨c, g1, g2, g3, g4⟩ := grow_spec f b.mem.length n hc.1 hc.2 hn (by
      have h1 : 2 ^ 62 ≤ 2 ^ f := Nat.pow_le_pow_right (by omega) (by omega)
      have := hc.1
      nlinarith)
    rw [g1]
    have hlm : (b.live ++ List.replicate (c - b.len) none).length = c := by
      rw [hl]; simp; omega
    refine ⟨_, rfl, rfl, rfl, ?_, ?_, ?_, ?_⟩
    · simp only
      rw [hl, ← hlen]
      simp
    · simp only; rw [hlm]; exact g2
    · simp only; rw [hlm]; omega
    · unfold CapOk; simp only; rw [hlm]; exact ⟨by have := hc.1; omega, g4⟩
  · rw [if_neg h]
    by_cases h2 : b.len > 0
    · rw [if_pos h2]
      have hlm : (b.live ++ b.mem.drop b.len).length = b.mem.length := by
        rw [hl]; simp; omega
      refine ⟨_, rfl, rfl, rfl, ?_, ?_, ?_, ?_⟩
      · simp only
        rw [hl, ← hlen]; simp
      · simp only; rw [hlm]; omega
      · simp only; rw [hlm]; omega
      · unfold CapOk; simp only; rw [hlm]; exact hc
    · rw [if_neg h2]
      have : b.len = 0 := by omega
      refine ⟨b, rfl, rfl, rfl, ?_, by omega, by omega, hc⟩
      rw [this] at hlen ⊢
      rw [List.length_eq_zero_iff.1 hlen]
      rfl

/-- filling appends as much of the stream as fits -/
theorem fill_spec (b : Buf) (l : List Byte) (hl : b.mem.take b.len = l.map some) (hp : b.len ≤ b.mem.length) :
    ∃ k, k ≤ b.rest.length ∧ (fill b).mem.length = b.mem.length ∧ (fill b).gen = b.gen ∧ (fill b).ptr = 0 ∧
      (fill b).live = (l ++ b.rest.take k).map some ∧ (fill b).rest = b.rest.drop k ∧ (fill b).len = l.length + k ∧
      (fill b).len ≤ b.mem.length ∧ ((fill b).len = b.mem.length ∨ (fill b).rest = []) := by
  have hlen : l.length = b.len := by
    have := congrArg List.length hl
    simp at this; omega
  refine ⟨min (b.mem.length - b.len) b.rest.length, by omega, ?_, rfl, rfl, ?_, rfl, by unfold fill; simp only; omega, ?_, ?_⟩
  · unfold fill; simp; omega
  · unfold fill Buf.live
    simp only [List.drop_zero]
    rw [hl, ← List.map_append, List.take_append_of_le_length (by simp; omega)]
    rw [List.take_of_length_le (by simp; omega)]
  · unfold fill; simp only; omega
  · unfold fill; simp only
    rcases Nat.le_total (b.mem.length - b.len) b.rest.length with h | h
    · left; omega
    · right
      rw [Nat.min_eq_right h]; simp

theorem take_spec (b : Buf) (s : List Byte) (h : Holds b s) (n : Nat) (hn : n ≤ b.len) :
    ∃ b' p, take b n = (b', p, (n : Int)) ∧ Points b' p (s.take n) ∧ Holds b' (s.drop n) ∧ b'.mem = b.mem := by
  obtain ⟨l, h1, h2, h3⟩ := h
  have hlen := live_length h1 h2
  unfold take
  rw [if_pos hn]
  refine ⟨_, _, rfl, ⟨_, rfl, rfl, ?_⟩, ⟨l.drop n, ?_, ?_, ?_⟩, rfl⟩
  · simp only
    have e1 : (s.take n).length = n := by rw [h3]; simp; omega
    have e2 : s.take n = l.take n := by rw [h3, List.take_append_of_le_length (by omega)]
    rw [e1, e2, List.map_take, ← h1]
    unfold Buf.live
    rw [List.take_take, Nat.min_eq_left hn]
  · unfold Buf.live at h1 ⊢
    simp only
    rw [List.map_drop, ← h1, List.drop_take, List.drop_drop]
  · simp only; omega
  · simp only
    rw [h3, List.drop_append_of_le_length (by omega)]

/-- **`Parse`** delivers the next bytes of the file, or nothing if there are not enough. -/
theorem parse_spec (fuel : Nat) (hf : 64 ≤ fuel) (b : Buf) (s : List Byte) (hb : Holds b s) (hc : CapOk b) (n : Nat)
    (hn : n ≤ 2 ^ 62) :
    (n ≤ s.length → ∃ b' p, parse fuel b n = some (b', p, (n : Int)) ∧ Points b' p (s.take n) ∧ Holds b' (s.drop n) ∧ CapOk b') ∧
    (s.length < n → ∃ b', parse fuel b n = some (b', none, 0) ∧ Holds b' s ∧ CapOk b') := by
  obtain ⟨l, h1, h2, h3⟩ := id hb
  have hlen := live_length h1 h2
  unfold parse
  by_cases h : b.len < n
  · rw [if_pos h]
    obtain ⟨b1, r1, r2, r3, r4, r5, r6, r7⟩ := room_spec fuel hf b hc n hn l h1 h2
    obtain ⟨k, f1, f2, f3, f4, f5, f6, f7, f8, f9⟩ := fill_spec b1 l r4 r6
    have hold : Holds (fill b1) s := by
      refine ⟨_, f5, by rw [f4, f2]; omega, ?_⟩
      rw [f6, List.append_assoc, List.take_append_drop, r3, h3]
    have hcap : CapOk (fill b1) := by unfold CapOk at r7 ⊢; rw [f2]; exact r7
    rw [r1]
    simp only [Option.map_some]
    constructor
    · intro hns
      have hle : n ≤ (fill b1).len := by
        rcases f9 with f9 | f9
        · omega
        · rw [f6] at f9
          have : k = b1.rest.length := by
            have := congrArg List.length f9
            simp at this; omega
          rw [f7, this, r3]
          rw [h3] at hns
          simpa using hns
      obtain ⟨b', p, t1, t2, t3, t4⟩ := take_spec _ s hold n hle
      exact ⟨b', p, by rw [t1], t2, t3, by unfold CapOk at hcap ⊢; rw [t4]; exact hcap⟩
    · intro hns
      have hlt : (fill b1).len < n := by
        rw [f7]
        rw [h3] at hns
        simp at hns
        rw [r3] at f1
        omega
      refine ⟨fill b1, ?_, hold, hcap⟩
      unfold take
      rw [if_neg (by omega)]
  · rw [if_neg h]
    constructor
    · intro _
      obtain ⟨b', p, t1, t2, t3, t4⟩ := take_spec b s hb n (by omega)
      exact ⟨b', p, by rw [t1], t2, t3, by unfold CapOk at hc ⊢; rw [t4]; exact hc⟩
    · intro hns
      rw [h3] at hns
      simp at hns
      omega

/-! ### C42 -/

/-- specification: cutting a byte sequence into pieces of given lengths; a piece that is not complete is refused and nothing
is consumed -/
def cut : List Byte → List Nat → List (Option (List Byte))
  | _, [] => []
  | s, n :: ns => if n ≤ s.length then some (s.take n) :: cut (s.drop n) ns else none :: cut s ns

/-- successive calls of `Parse`; what each pointer points to when it is returned (`none` for a null pointer) -/
def reads (fuel : Nat) : Buf → List Nat → Option (List (Res (Option (List Byte) × Int)))
  | _, [] => some []
  | b, n :: ns =>
    match parse fuel b n with
    | none => none
    | some (b', p, noRead) =>
      (reads fuel b' ns).map fun r =>
        (match p with
          | none => .ok (none, noRead)
          | some q => (derefs b' (some q) 0 n).bind fun l => .ok (some l, noRead)) :: r

theorem deref_points {b : Buf} {p : Option Ptr} {c : List Byte} (h : Points b p c) {k : Nat} {x : Byte} (hk : c[k]? = some x) :
    deref b p k = .ok x := by
  obtain ⟨q, rfl, h2, h3⟩ := h
  unfold deref
  simp only
  rw [if_pos h2]
  have hkl := (List.getElem?_eq_some_iff.1 hk).1
  have : b.mem[q.off + k]? = some (some x) := by
    have e : ((b.mem.drop q.off).take c.length)[k]? = (c.map some)[k]? := by rw [h3]
    rw [List.getElem?_take, if_pos hkl, List.getElem?_drop, List.getElem?_map, hk] at e
    exact e
  rw [this]

theorem derefs_points {b : Buf} {p : Option Ptr} {c : List Byte} (h : Points b p c) (n : Nat) : ∀ k, k + n ≤ c.length →
    derefs b p k n = .ok ((c.drop k).take n) := by
  induction n with
  | zero => intro k _; simp [derefs]
  | succ n ih =>
    intro k hk
    have hk' : k < c.length := by omega
    rw [derefs, deref_points h (List.getElem?_eq_getElem hk'), Res.bind_ok, ih (k + 1) (by omega), Res.bind_ok]
    rw [List.drop_eq_getElem_cons hk', List.take_succ_cons]

/-- **C42.** For every file, every initial capacity and every sequence of requested lengths, `Parse` delivers the bytes of the
file in order, cut into pieces of these lengths, and reports the length; a request beyond the end gives a null pointer and
length 0 and consumes nothing. -/
theorem c42_buffer (cap : Nat) (h1 : 1 ≤ cap) (h2 : cap < 2 ^ 63) (file : List Byte) (ns : List Nat)
    (hn : ∀ n ∈ ns, n ≤ 2 ^ 62) (fuel : Nat) (hf : 64 ≤ fuel) :
    reads fuel (Buf.init cap file) ns =
      some ((cut file ns).map fun
        | some l => .ok (some l, (l.length : Int))
        | none => .ok (none, 0)) := by
  have gen : ∀ (ns : List Nat) (b : Buf) (s : List Byte), (∀ n ∈ ns, n ≤ 2 ^ 62) → Holds b s → CapOk b →
      reads fuel b ns = some ((cut s ns).map fun
        | some l => .ok (some l, (l.length : Int))
        | none => .ok (none, 0)) := by
    intro ns
    induction ns with
    | nil => intro b s _ _ _; rfl
    | cons n ns ih =>
      intro b s hn hb hc
      have hn' : ∀ m ∈ ns, m ≤ 2 ^ 62 := fun m hm => hn m (by simp [hm])
      rw [reads, cut]
      by_cases h : n ≤ s.length
      · obtain ⟨b', p, e1, e2, e3, e4⟩ := (parse_spec fuel hf b s hb hc n (hn n (by simp))).1 h
        rw [e1, if_pos h]
        obtain ⟨q, rfl, _⟩ := id e2
        have hlen : (s.take n).length = n := by simp; omega
        have hd := derefs_points e2 n 0 (by omega)
        rw [List.drop_zero, List.take_of_length_le (by omega)] at hd
        simp only [ih b' _ hn' e3 e4, Option.map_some, hd, Res.bind_ok, List.map_cons, hlen]
      · obtain ⟨b', e1, e2, e3⟩ := (parse_spec fuel hf b s hb hc n (hn n (by simp))).2 (by omega)
        rw [e1, if_neg h]
        simp only [ih b' _ hn' e2 e3, Option.map_some, List.map_cons]
  apply gen ns _ _ hn
  · refine ⟨[], ?_, by simp [Buf.init], rfl⟩
    unfold Buf.live Buf.init
    simp
  · unfold CapOk Buf.init
    simp
    exact ⟨h1, h2⟩

/-- A request of `2 ^ 64 - 1` bytes (the body of a record of length one) never returns: the capacity is doubled for ever. -/
theorem c42_endless (fuel : Nat) : ∀ cap, cap < 2 ^ 64 - 1 → grow fuel cap (2 ^ 64 - 1) = none := by
  induction fuel with
  | zero => intro cap _; rfl
  | succ f ih =>
    intro cap h
    rw [grow, if_pos h]
    exact ih _ (by omega)

/-- example: a buffer of one byte, requests crossing it -/
example : reads 64 (Buf.init 1 [1, 2, 3, 4, 5, 6, 7]) [2, 0, 3, 5, 2] =
    some [.ok (some [1, 2], 2), .ok (some [], 0), .ok (some [3, 4, 5], 3), .ok (none, 0), .ok (some [6, 7], 2)] := by
  decide +kernel

end Ecad.Gds
