import Verif.Gds.BufProps
import Mathlib.Tactic.Ring
import Mathlib.Tactic.NormNum
import Mathlib.Data.List.Induction
/-!
C41 and C43: decoding of numbers and records.
-/
namespace Ecad.Gds

/-! ### specification: how numbers and records are written -/

/-- `w` bytes of a number, most significant first -/
def be : Nat → Nat → List Byte
  | 0, _ => []
  | w + 1, v => be w (v / 256) ++ [⟨v % 256, Nat.mod_lt _ (by omega)⟩]

/-- two's complement of `w` bytes -/
def twos (w : Nat) (v : Int) : List Byte := be w (v % 256 ^ w).toNat

/-- an eight-byte real: sign, exponent (excess 64, base 16), fraction of 56 bits -/
structure Real8 where
  neg : Bool
  exp : Nat
  mant : Nat
  deriving DecidableEq

/-- bytes of a real -/
def Real8.bytes (r : Real8) : List Byte :=
  be 1 ((if r.neg then 128 else 0) + r.exp) ++ be 7 r.mant

/-- the number a real stands for -/
def Real8.value (r : Real8) : ℚ := (if r.neg then -1 else 1) * (r.mant : ℚ) / 2 ^ 56 * 16 ^ ((r.exp : Int) - 64)

/-- exponent and fraction fit -/
def Real8.Fits (r : Real8) : Prop := r.exp < 128 ∧ r.mant < 2 ^ 56

/-- a record by content -/
inductive Rec
  | bits (t : Byte) (l : List Nat)
  | int2 (t : Byte) (l : List Int)
  | int4 (t : Byte) (l : List Int)
  | real8 (t : Byte) (l : List Real8)
  | str (t : Byte) (l : List Nat)
  | none (t : Byte)
  | other (t : Byte) (l : List Byte)

/-- record type -/
def Rec.type : Rec → Byte
  | .bits t _ | .int2 t _ | .int4 t _ | .real8 t _ | .str t _ | .none t | .other t _ => t

/-- data type -/
def Rec.dataType : Rec → Byte
  | .bits _ _ => 1
  | .int2 _ _ => 2
  | .int4 _ _ => 3
  | .real8 _ _ => 5
  | .str _ _ => 6
  | .none _ => 0
  | .other _ _ => 7

/-- data; strings are padded with a null character to even length -/
def Rec.payload : Rec → List Byte
  | .bits _ l => l.flatMap (be 2)
  | .int2 _ l => l.flatMap (twos 2)
  | .int4 _ l => l.flatMap (twos 4)
  | .real8 _ l => l.flatMap Real8.bytes
  | .str _ l => l.flatMap (be 1) ++ (if l.length % 2 = 1 then [0] else [])
  | .none _ => []
  | .other _ l => l

/-- A record is well formed: the data fit, the length fits into the length field, and the data are of the kind the format
lays down for the type.  Type `other`: the types for which the code knows no kind of data. -/
def Rec.WF (r : Rec) : Prop :=
  r.payload.length + 4 < 65536 ∧
  expected (recordType r.type) = r.dataType.val ∧
  match r with
  | .bits _ l => ∀ v ∈ l, v < 2 ^ 16
  | .int2 _ l => ∀ v ∈ l, -2 ^ 15 ≤ v ∧ v < 2 ^ 15
  | .int4 _ l => ∀ v ∈ l, -2 ^ 31 ≤ v ∧ v < 2 ^ 31
  | .real8 _ l => ∀ v ∈ l, v.Fits
  | .str _ l => ∀ v ∈ l, 32 ≤ v ∧ v < 127
  | .none _ => True
  | .other _ _ => True

/-- bytes of a record -/
def Rec.bytes (r : Rec) : List Byte := be 2 (r.payload.length + 4) ++ [r.type, r.dataType] ++ r.payload

/-- the calls of the reader a record asks for -/
def Rec.calls (r : Rec) : List Call :=
  match r with
  | .bits t l => [.bits (recordType t) (l.map fun v : Nat => (v : Int))]
  | .int2 t l => [.int2 (recordType t) l]
  | .int4 t l => [.int4 (recordType t) l]
  | .real8 t l => [.real8 (recordType t) (l.map Real8.value)]
  | .str t l => [.str (recordType t) l]
  | .none t => [.none (recordType t)]
  | .other _ _ => []

/-! ### C41 -/

theorem be_length (w v : Nat) : (be w v).length = w := by
  induction w generalizing v with
  | zero => rfl
  | succ w ih => simp [be, ih]

theorem shiftIn_be (W w v : Nat) (h : 8 * w ≤ W) : shiftIn W (be w v) = v % 256 ^ w := by
  induction w generalizing v with
  | zero => simp [be, shiftIn, Nat.mod_one]
  | succ w ih =>
    unfold shiftIn at ih ⊢
    rw [be, List.foldl_append, ih (v / 256) (by omega)]
    simp only [List.foldl_cons, List.foldl_nil]
    have h1 : v / 256 % 256 ^ w * 256 + v % 256 = v % 256 ^ (w + 1) := by
      rw [pow_succ, Nat.mul_comm (256 ^ w) 256, Nat.mod_mul]
      ring
    rw [h1]
    apply Nat.mod_eq_of_lt
    calc v % 256 ^ (w + 1) < 256 ^ (w + 1) := Nat.mod_lt _ (by positivity)
      _ = 2 ^ (8 * (w + 1)) := by rw [pow_mul]; norm_num
      _ ≤ 2 ^ W := Nat.pow_le_pow_right (by omega) h

theorem int2_be (u : Nat) (h : u < 2 ^ 16) : int2 (be 2 u) = if u < 2 ^ 15 then (u : Int) else (u : Int) - 2 ^ 16 := by
  unfold int2 toInt32
  rw [shiftIn_be 32 2 u (by omega), Nat.mod_eq_of_lt (by norm_num; omega)]
  norm_num only at h ⊢
  by_cases h1 : u < 32768
  · have h2 : ¬ u / 32768 % 2 = 1 := by omega
    rw [if_pos h1, if_neg h2, if_pos (by omega)]
  · have h2 : u / 32768 % 2 = 1 := by omega
    rw [if_neg h1, if_pos h2]
    have : (4294967296 - (32767 - u % 32768 + 1)) % 4294967296 = 4294901760 + u := by omega
    rw [this, if_neg (by omega)]
    omega

theorem int4_be (u : Nat) (h : u < 2 ^ 32) : int4 (be 4 u) = if u < 2 ^ 31 then (u : Int) else (u : Int) - 2 ^ 32 := by
  unfold int4 toInt32
  rw [shiftIn_be 32 4 u (by omega), Nat.mod_eq_of_lt (by norm_num; omega)]
  norm_num only at h ⊢
  by_cases h1 : u < 2147483648
  · have h2 : ¬ u / 2147483648 % 2 = 1 := by omega
    rw [if_pos h1, if_neg h2, if_pos h1]
  · have h2 : u / 2147483648 % 2 = 1 := by omega
    rw [if_neg h1, if_pos h2]
    have : (4294967296 - (2147483647 - u % 2147483648 + 1)) % 4294967296 = u := by omega
    rw [this, if_neg h1]

/-- **C41**, integers: every number of the range is read back from its two's complement, -/
theorem c41_integers (v : Int) :
    (-2 ^ 15 ≤ v → v < 2 ^ 15 → int2 (twos 2 v) = v) ∧ (-2 ^ 31 ≤ v → v < 2 ^ 31 → int4 (twos 4 v) = v) := by
  constructor
  · intro h1 h2
    unfold twos
    rw [int2_be _ (by omega)]
    split <;> omega
  · intro h1 h2
    unfold twos
    rw [int4_be _ (by omega)]
    split <;> omega

theorem shiftIn_lt (l : List Byte) : l.foldl (fun a (x : Byte) => a * 256 + x.val) 0 < 256 ^ l.length ∧ be l.length (l.foldl (fun a (x : Byte) => a * 256 + x.val) 0) = l := by
  induction l using List.reverseRecOn with
  | nil => simp [be]
  | append_singleton l x ih =>
    obtain ⟨h2, h3⟩ := ih
    rw [List.foldl_append, List.length_append, List.length_singleton]
    simp only [List.foldl_cons, List.foldl_nil]
    have hx := x.isLt
    have hlt : List.foldl (fun a (x : Byte) => a * 256 + x.val) 0 l * 256 + x.val < 256 ^ (l.length + 1) := by
      rw [pow_succ]; nlinarith
    have hbe : be (l.length + 1) (List.foldl (fun a (x : Byte) => a * 256 + x.val) 0 l * 256 + x.val) = l ++ [x] := by
      rw [be]
      have e1 : (List.foldl (fun a (x : Byte) => a * 256 + x.val) 0 l * 256 + x.val) / 256 =
          List.foldl (fun a (x : Byte) => a * 256 + x.val) 0 l := by omega
      rw [e1, h3]
      congr 2
      ext
      simp only
      omega
    exact ⟨hlt, hbe⟩

/-- and every pattern of bytes is read as the one number of the range whose two's complement it is. -/
theorem c41_patterns :
    (∀ l : List Byte, l.length = 2 → -2 ^ 15 ≤ int2 l ∧ int2 l < 2 ^ 15 ∧ twos 2 (int2 l) = l) ∧
    (∀ l : List Byte, l.length = 4 → -2 ^ 31 ≤ int4 l ∧ int4 l < 2 ^ 31 ∧ twos 4 (int4 l) = l) := by
  constructor
  · intro l hl
    obtain ⟨h2, h3⟩ := shiftIn_lt l
    rw [hl] at h2 h3
    generalize List.foldl (fun a (x : Byte) => a * 256 + x.val) 0 l = u at h2 h3
    rw [← h3, int2_be u (by norm_num at h2 ⊢; omega)]
    norm_num at h2
    unfold twos
    split
    · refine ⟨by omega, by omega, ?_⟩
      congr 1; norm_num; omega
    · refine ⟨by omega, by omega, ?_⟩
      congr 1; norm_num; omega
  · intro l hl
    obtain ⟨h2, h3⟩ := shiftIn_lt l
    rw [hl] at h2 h3
    generalize List.foldl (fun a (x : Byte) => a * 256 + x.val) 0 l = u at h2 h3
    rw [← h3, int4_be u (by norm_num at h2 ⊢; omega)]
    norm_num at h2
    unfold twos
    split
    · refine ⟨by omega, by omega, ?_⟩
      congr 1; norm_num; omega
    · refine ⟨by omega, by omega, ?_⟩
      congr 1; norm_num; omega

theorem be_one (v : Nat) : be 1 v = [⟨v % 256, Nat.mod_lt _ (by omega)⟩] := rfl

/-- **C41**, reals: for every sign, exponent and fraction the number read is the one encoded; and every eight bytes encode one. -/
theorem c41_reals :
    (∀ r : Real8, r.Fits → real 7 r.bytes = r.value) ∧
    (∀ l : List Byte, l.length = 8 → ∃ r : Real8, r.Fits ∧ r.bytes = l) := by
  constructor
  · intro r h
    obtain ⟨h1, h2⟩ := h
    unfold Real8.bytes Real8.value
    rw [be_one, List.singleton_append, real]
    simp only
    have hm : r.mant % 256 ^ 7 = r.mant := Nat.mod_eq_of_lt (by norm_num at h2 ⊢; omega)
    rw [shiftIn_be 64 7 _ (by omega), hm]
    cases r.neg with
    | false =>
      simp only [Bool.false_eq_true, if_false, zero_add]
      have h3 : r.exp % 256 = r.exp := by omega
      have h4 : r.exp % 128 = r.exp := by omega
      rw [h3, if_neg (by omega), h4]
      norm_num
    | true =>
      simp only [if_true]
      have h3 : (128 + r.exp) % 256 = 128 + r.exp := by omega
      rw [h3, if_pos (by omega)]
      have : (128 + r.exp) % 128 = r.exp := by omega
      rw [this]
      norm_num
      ring
  · intro l hl
    match l, hl with
    | x :: l, hl =>
      obtain ⟨h2, h3⟩ := shiftIn_lt l
      have hl7 : l.length = 7 := by simpa using hl
      rw [hl7] at h2 h3
      have hx := x.isLt
      refine ⟨⟨decide (x.val / 128 = 1), x.val % 128, _⟩, ⟨by simp only; omega, by norm_num at h2 ⊢; exact h2⟩, ?_⟩
      unfold Real8.bytes
      simp only
      rw [h3, be_one, List.singleton_append]
      congr 1
      ext
      simp only [decide_eq_true_eq]
      split <;> omega

/-- example: 1.0, and 1/1000 as commonly written -/
example : real 7 [0x41, 0x10, 0, 0, 0, 0, 0, 0] = 1 ∧ int2 [0xff, 0xfe] = -2 ∧ int4 [0x80, 0, 0, 0] = -2147483648 ∧
    real 7 [0xc1, 0x28, 0, 0, 0, 0, 0, 0] = -5/2 := by
  refine ⟨by decide +kernel, by decide +kernel, by decide +kernel, by decide +kernel⟩

/-! ### C43 -/

theorem items_points {A B : Type} {b : Buf} {p : Option Ptr} (w : Nat) (f : List Byte → A) (g : B → List Byte) (l : List B)
    (hg : ∀ v ∈ l, (g v).length = w) : ∀ (pre : List Byte), Points b p (pre ++ l.flatMap g) →
    items b p w f pre.length l.length = .ok (l.map fun v => f (g v)) := by
  induction l with
  | nil => intro pre _; rfl
  | cons v l ih =>
    intro pre hp
    rw [List.length_cons, items]
    have hv := hg v (by simp)
    rw [derefs_points hp w pre.length (by simp [hv])]
    have e : ((pre ++ (v :: l).flatMap g).drop pre.length).take w = g v := by
      rw [List.drop_append_of_le_length (le_refl _), List.drop_length, List.nil_append, List.flatMap_cons,
        List.take_append_of_le_length (by omega), List.take_of_length_le (by omega)]
    rw [e, Res.bind_ok]
    have := ih (fun u hu => hg u (by simp [hu])) (pre ++ g v) (by
      rw [List.append_assoc, ← List.flatMap_cons]; exact hp)
    rw [List.length_append, hv] at this
    rw [this]
    rfl

theorem str_points {b : Buf} {p : Option Ptr} : ∀ (n : Nat) (l : List Nat), l.length ≤ n → (∀ v ∈ l, 32 ≤ v ∧ v < 127) →
    ∀ (pre : List Byte), Points b p (pre ++ (l.flatMap (be 1) ++ (if l.length % 2 = 1 then [0] else []))) →
    strLoop b p pre.length ((l.length + 1) / 2) = .ok l := by
  intro n
  induction n with
  | zero =>
    intro l hl _ pre _
    rw [List.length_eq_zero_iff.1 (by omega : l.length = 0)]
    rfl
  | succ n ih =>
    intro l hl hv pre hp
    have hprint : ∀ v, 32 ≤ v ∧ v < 127 → ∀ hlt, printable (⟨v % 256, hlt⟩ : Byte) = .ok v := by
      intro v h1 hlt
      unfold printable
      simp only
      rw [if_neg (by omega), if_neg (by omega), if_pos (by omega)]
      congr 1; omega
    match l with
    | [] => rfl
    | [v] =>
      have h1 := hv v (by simp)
      have e : ([v].length + 1) / 2 = 0 + 1 := by simp
      rw [e, strLoop]
      have d0 := deref_points hp (k := pre.length) (x := ⟨v % 256, Nat.mod_lt _ (by omega)⟩) (by
        rw [List.getElem?_append_right (le_refl _)]; simp [be])
      have d1 := deref_points hp (k := pre.length + 1) (x := 0) (by
        rw [List.getElem?_append_right (by omega)]; simp [be])
      rw [d0, Res.bind_ok, d1, Res.bind_ok, if_neg (by simp only; omega), hprint v h1, Res.bind_ok, if_pos (by rfl)]
    | v :: u :: l =>
      have h1 := hv v (by simp)
      have h2 := hv u (by simp)
      have e : ((v :: u :: l).length + 1) / 2 = (l.length + 1) / 2 + 1 := by simp; omega
      rw [e, strLoop]
      have d0 := deref_points hp (k := pre.length) (x := ⟨v % 256, Nat.mod_lt _ (by omega)⟩) (by
        rw [List.getElem?_append_right (le_refl _)]; simp [be])
      have d1 := deref_points hp (k := pre.length + 1) (x := ⟨u % 256, Nat.mod_lt _ (by omega)⟩) (by
        rw [List.getElem?_append_right (by omega)]; simp [be])
      rw [d0, Res.bind_ok, d1, Res.bind_ok, if_neg (by simp only; omega), hprint v h1, Res.bind_ok,
        if_neg (by simp only; omega), hprint u h2, Res.bind_ok]
      have := ih l (by simp at hl; omega) (fun w hw => hv w (by simp [hw])) (pre ++ be 1 v ++ be 1 u) (by
        have hm : (v :: u :: l).length % 2 = l.length % 2 := by simp only [List.length_cons]; omega
        rw [hm] at hp
        simpa [List.flatMap_cons] using hp)
      have hlen : (pre ++ be 1 v ++ be 1 u).length = pre.length + 2 := by simp [be_length]
      rw [hlen] at this
      rw [this]
      rfl

theorem flatMap_length {B : Type} (w : Nat) (g : B → List Byte) (l : List B) (hg : ∀ v ∈ l, (g v).length = w) :
    (l.flatMap g).length = w * l.length := by
  induction l with
  | nil => simp
  | cons v l ih =>
    rw [List.flatMap_cons, List.length_append, hg v (by simp), ih fun u hu => hg u (by simp [hu]), List.length_cons]
    ring

theorem turns_eq (w c : Nat) (hw : 0 < w) : turns (2 + w * c) w = c := by
  unfold turns
  have : 2 + w * c - 2 + (w - 1) = (w - 1) + w * c := by omega
  rw [this, Nat.add_mul_div_left _ _ hw, Nat.div_eq_of_lt (by omega), Nat.zero_add]

theorem Real8.bytes_length (r : Real8) : r.bytes.length = 8 := by simp [Real8.bytes, be_length]

/-- a record in the buffer leads to its calls -/
theorem dispatch_points {b : Buf} {p : Option Ptr} (r : Rec) (hr : r.WF)
    (hp : Points b p ([r.type, r.dataType] ++ r.payload)) : dispatch b p (2 + r.payload.length) = .ok r.calls := by
  unfold dispatch
  rw [deref_points hp (k := 0) (x := r.type) (by rfl), Res.bind_ok, deref_points hp (k := 1) (x := r.dataType) (by rfl),
    Res.bind_ok]
  obtain ⟨_, he, hd⟩ := hr
  simp only [he]
  cases r with
  | bits t l =>
    have hlen := flatMap_length 2 (be 2) l fun v _ => be_length 2 v
    have := items_points (b := b) (p := p) 2 bits (be 2) l (fun v _ => be_length 2 v) [t, 1] hp
    simp only [Rec.dataType, Rec.payload, hlen, turns_eq 2 _ (by omega : 0 < 2)]
    show (items b p 2 bits [t, 1].length l.length).bind _ = _
    rw [this, Res.bind_ok]
    unfold Rec.calls
    congr 3
    apply List.map_congr_left
    intro v hv
    unfold bits
    have h1 : v < 2 ^ 16 := hd v hv
    rw [shiftIn_be 32 2 v (by omega), Nat.mod_eq_of_lt (by norm_num; omega)]
  | int2 t l =>
    have hlen := flatMap_length 2 (twos 2) l fun v _ => be_length 2 _
    have := items_points (b := b) (p := p) 2 int2 (twos 2) l (fun v _ => be_length 2 _) [t, 2] hp
    simp only [Rec.dataType, Rec.payload, hlen, turns_eq 2 _ (by omega : 0 < 2)]
    show (items b p 2 int2 [t, 2].length l.length).bind _ = _
    rw [this, Res.bind_ok]
    unfold Rec.calls
    congr 3
    conv_rhs => rw [← List.map_id l]
    apply List.map_congr_left
    intro v hv
    exact (c41_integers v).1 (hd v hv).1 (hd v hv).2
  | int4 t l =>
    have hlen := flatMap_length 4 (twos 4) l fun v _ => be_length 4 _
    have := items_points (b := b) (p := p) 4 int4 (twos 4) l (fun v _ => be_length 4 _) [t, 3] hp
    simp only [Rec.dataType, Rec.payload, hlen, turns_eq 4 _ (by omega : 0 < 4)]
    show (items b p 4 int4 [t, 3].length l.length).bind _ = _
    rw [this, Res.bind_ok]
    unfold Rec.calls
    congr 3
    conv_rhs => rw [← List.map_id l]
    apply List.map_congr_left
    intro v hv
    exact (c41_integers v).2 (hd v hv).1 (hd v hv).2
  | real8 t l =>
    have hlen := flatMap_length 8 Real8.bytes l fun v _ => v.bytes_length
    have := items_points (b := b) (p := p) 8 (real 7) Real8.bytes l (fun v _ => v.bytes_length) [t, 5] hp
    simp only [Rec.dataType, Rec.payload, hlen, turns_eq 8 _ (by omega : 0 < 8)]
    show (items b p 8 (real 7) [t, 5].length l.length).bind _ = _
    rw [this, Res.bind_ok]
    unfold Rec.calls
    congr 3
    apply List.map_congr_left
    intro v hv
    exact c41_reals.1 v (hd v hv)
  | str t l =>
    have hlen := flatMap_length 1 (be 1) l fun v _ => be_length 1 v
    have hpl : (l.flatMap (be 1) ++ (if l.length % 2 = 1 then [(0 : Byte)] else [])).length = 2 * ((l.length + 1) / 2) := by
      rw [List.length_append, hlen]
      split <;> simp <;> omega
    have := str_points (b := b) (p := p) l.length l (le_refl _) hd [t, 6] hp
    simp only [Rec.dataType, Rec.payload, hpl, turns_eq 2 _ (by omega : 0 < 2)]
    show (strLoop b p [t, 6].length ((l.length + 1) / 2)).bind _ = _
    rw [this]
    rfl
  | none t => rfl
  | other t l => rfl

theorem parse_inplace (fuel : Nat) (b : Buf) (n : Nat) (h : n ≤ b.len) :
    parse fuel b n = some ({ b with ptr := b.ptr + n, len := b.len - n }, some ⟨b.gen, b.ptr⟩, (n : Int)) := by
  unfold parse take
  rw [if_neg (by omega), if_pos h]

/-- one well formed record is one turn of the loop -/
theorem turn_record (fuel : Nat) (hf : 64 ≤ fuel) (b : Buf) (record : Option Ptr) (r : Rec) (hr : r.WF) (s : List Byte)
    (hb : Holds b (r.bytes ++ s)) (hc : CapOk b) :
    ∃ b' record', turn fuel b record = some (.ok (.go r.calls b' record')) ∧ Holds b' s ∧ CapOk b' ∧
      Points b' record' ([r.type, r.dataType] ++ r.payload) ∧
      (r.bytes.length ≤ b.len → b' = { b with ptr := b.ptr + r.bytes.length, len := b.len - r.bytes.length } ∧
        record' = some ⟨b.gen, b.ptr + 2⟩) := by
  have hlen : r.payload.length + 4 < 65536 := hr.1
  unfold turn
  obtain ⟨b1, p1, e1, e2, e3, e4⟩ := (parse_spec fuel hf b _ hb hc 2 (by norm_num)).1 (by
    simp [Rec.bytes, be_length])
  rw [e1]
  simp only
  rw [if_neg (by simp)]
  have ht : (r.bytes ++ s).take 2 = be 2 (r.payload.length + 4) := by
    unfold Rec.bytes
    rw [List.append_assoc, List.append_assoc, List.take_append_of_le_length (by simp [be_length]),
      List.take_of_length_le (by simp [be_length])]
  have hdr : (r.bytes ++ s).drop 2 = [r.type, r.dataType] ++ r.payload ++ s := by
    unfold Rec.bytes
    rw [List.append_assoc, List.append_assoc, List.drop_append_of_le_length (by simp [be_length]),
      List.drop_of_length_le (by simp [be_length])]
    simp
  rw [ht] at e2
  rw [hdr] at e3
  have x0 := deref_points e2 (k := 0) (x := ⟨(r.payload.length + 4) / 256 % 256, Nat.mod_lt _ (by omega)⟩) (by simp [be])
  have x1 := deref_points e2 (k := 1) (x := ⟨(r.payload.length + 4) % 256, Nat.mod_lt _ (by omega)⟩) (by simp [be])
  rw [x0, x1]
  simp only
  have hval : (r.payload.length + 4) / 256 % 256 * 256 + (r.payload.length + 4) % 256 = r.payload.length + 4 := by omega
  rw [hval]
  unfold body
  rw [if_neg (by omega)]
  have hbl : bodyLen (r.payload.length + 4) = 2 + r.payload.length := by unfold bodyLen; rw [if_neg (by omega)]; omega
  rw [hbl]
  obtain ⟨b2, p2, f1, f2, f3, f4⟩ := (parse_spec fuel hf b1 _ e3 e4 (2 + r.payload.length) (by omega)).1 (by simp; omega)
  rw [f1]
  have ht2 : ([r.type, r.dataType] ++ r.payload ++ s).take (2 + r.payload.length) = [r.type, r.dataType] ++ r.payload := by
    rw [List.take_append_of_le_length (by simp; omega), List.take_of_length_le (by simp; omega)]
  have hd2 : ([r.type, r.dataType] ++ r.payload ++ s).drop (2 + r.payload.length) = s := by
    rw [List.drop_append_of_le_length (by simp; omega), List.drop_of_length_le (by simp; omega)]
    simp
  rw [ht2] at f2
  rw [hd2] at f3
  simp only [Option.map_some]
  rw [if_neg (by push_cast; omega), dispatch_points r hr f2]
  refine ⟨b2, p2, rfl, f3, f4, f2, ?_⟩
  intro hin
  have hbl2 : r.bytes.length = 4 + r.payload.length := by simp [Rec.bytes, be_length]; omega
  rw [parse_inplace fuel b 2 (by omega)] at e1
  injection e1 with e1
  injection e1 with e1 e1'
  subst e1
  rw [parse_inplace fuel _ _ (by simp only; omega)] at f1
  injection f1 with f1
  injection f1 with f1 f1'
  injection f1' with f1' _
  subst f1
  refine ⟨?_, f1'.symm⟩
  simp only [Buf.mk.injEq, true_and, and_true]
  omega

/-- well formed records are parsed one after the other -/
theorem loop_records (rs : List Rec) : ∀ (fuel : Nat), 64 ≤ fuel → ∀ (b : Buf) (record : Option Ptr) (s : List Byte),
    (∀ r ∈ rs, r.WF) → Holds b (rs.flatMap Rec.bytes ++ s) → CapOk b →
    ∃ b' record', Holds b' s ∧ CapOk b' ∧ (rs = [] → b' = b ∧ record' = record) ∧
      (∀ r, rs.getLast? = some r → Points b' record' ([r.type, r.dataType] ++ r.payload)) ∧
      loop (fuel + rs.length) b record = prepend (rs.flatMap Rec.calls) (loop fuel b' record') ∧
      ((rs.flatMap Rec.bytes).length ≤ b.len → b' = { b with ptr := b.ptr + (rs.flatMap Rec.bytes).length, len := b.len - (rs.flatMap Rec.bytes).length } ∧
        (rs ≠ [] → ∃ off, record' = some ⟨b.gen, off⟩ ∧ off + 2 ≤ b.ptr + (rs.flatMap Rec.bytes).length)) := by
  induction rs with
  | nil =>
    intro fuel _ b record s _ hb hc
    refine ⟨b, record, by simpa using hb, hc, fun _ => ⟨rfl, rfl⟩, by simp, ?_, by simp⟩
    simp only [List.length_nil, Nat.add_zero, List.flatMap_nil]
    cases loop fuel b record with
    | none => rfl
    | some r => cases r <;> rfl
  | cons r rs ih =>
    intro fuel hf b record s hw hb hc
    rw [List.flatMap_cons, List.append_assoc] at hb
    obtain ⟨b1, rec1, t1, t2, t3, t4⟩ := turn_record (fuel + rs.length) (by omega) b record r (hw r (by simp)) _ hb hc
    obtain ⟨t4, t5⟩ := t4
    obtain ⟨b2, rec2, u1, u2, u3, u4, u5, u6⟩ := ih fuel hf b1 rec1 s (fun q hq => hw q (by simp [hq])) t2 t3
    refine ⟨b2, rec2, u1, u2, by simp, ?_, ?_, ?_⟩
    · intro q hq
      cases rs with
      | nil =>
        simp at hq
        subst hq
        obtain ⟨rfl, rfl⟩ := u3 rfl
        exact t4
      | cons q' rs => exact u4 q (by simpa using hq)
    · have : fuel + (r :: rs).length = (fuel + rs.length) + 1 := by simp; omega
      rw [this, loop, t1]
      simp only
      rw [u5, List.flatMap_cons]
      cases loop fuel b2 rec2 with
      | none => rfl
      | some q => cases q <;> simp [prepend]
    · intro hin
      rw [List.flatMap_cons, List.length_append] at hin ⊢
      obtain ⟨v1, v2⟩ := t5 (by omega)
      subst v1
      obtain ⟨w1, w2⟩ := u6 (by simp only; omega)
      refine ⟨?_, ?_⟩
      · rw [w1]
        simp only [Buf.mk.injEq, true_and, and_true]
        omega
      · intro _
        by_cases hrs : rs = []
        · subst hrs
          refine ⟨b.ptr + 2, by rw [(u3 rfl).2, v2], ?_⟩
          simp [Rec.bytes, be_length]
          omega
        · obtain ⟨off, x1, x2⟩ := w2 hrs
          refine ⟨off, x1, ?_⟩
          simp only at x2
          omega

theorem init_holds (cap : Nat) (file : List Byte) : Holds (Buf.init cap file) file := by
  refine ⟨[], ?_, by simp [Buf.init], rfl⟩
  unfold Buf.live Buf.init
  simp

/-- The end of a file, complete or not: whatever is a proper part of a record ends the loop. -/
theorem loop_tail (fuel : Nat) (hf : 64 ≤ fuel) (b : Buf) (record : Option Ptr) (r : Rec) (hr : r.WF) (s : List Byte)
    (hs : s <+: r.bytes) (hne : s.length < r.bytes.length) (hb : Holds b s) (hc : CapOk b) :
    loop (fuel + 1) b record = some (.ok ([], true)) := by
  have hlen : r.payload.length + 4 < 65536 := hr.1
  have hbl : r.bytes.length = 4 + r.payload.length := by simp [Rec.bytes, be_length]; omega
  have ht : turn fuel b record = some (.ok .stop) := by
    unfold turn
    by_cases h2 : 2 ≤ s.length
    · obtain ⟨b1, p1, e1, e2, e3, e4⟩ := (parse_spec fuel hf b _ hb hc 2 (by norm_num)).1 h2
      rw [e1]
      simp only
      rw [if_neg (by simp)]
      have htk : s.take 2 = be 2 (r.payload.length + 4) := by
        rw [List.prefix_iff_eq_take] at hs
        rw [hs, List.take_take, Nat.min_eq_left h2]
        unfold Rec.bytes
        rw [List.append_assoc, List.take_append_of_le_length (by simp [be_length]), List.take_of_length_le (by simp [be_length])]
      rw [htk] at e2
      have x0 := deref_points e2 (k := 0) (x := ⟨(r.payload.length + 4) / 256 % 256, Nat.mod_lt _ (by omega)⟩) (by simp [be])
      have x1 := deref_points e2 (k := 1) (x := ⟨(r.payload.length + 4) % 256, Nat.mod_lt _ (by omega)⟩) (by simp [be])
      rw [x0, x1]
      simp only
      have hval : (r.payload.length + 4) / 256 % 256 * 256 + (r.payload.length + 4) % 256 = r.payload.length + 4 := by omega
      rw [hval]
      unfold body
      rw [if_neg (by omega)]
      have hbl2 : bodyLen (r.payload.length + 4) = 2 + r.payload.length := by unfold bodyLen; rw [if_neg (by omega)]; omega
      rw [hbl2]
      obtain ⟨b2, f1, _, _⟩ := (parse_spec fuel hf b1 _ e3 e4 (2 + r.payload.length) (by omega)).2 (by simp; omega)
      rw [f1]
      simp only [Option.map_some]
      rw [if_pos (by push_cast; omega)]
    · obtain ⟨b', e1, _, _⟩ := (parse_spec fuel hf b _ hb hc 2 (by norm_num)).2 (by omega)
      rw [e1]
      simp only
      rw [if_pos (by norm_num)]
  rw [loop, ht]

/-- **C43**, complete files: for every list of well formed records and every buffer size the reader is called for the records
in order with the decoded data (records of the types for which the code knows no data are passed over), and `true` is
returned. -/
theorem c43_records (cap : Nat) (h1 : 1 ≤ cap) (h2 : cap < 2 ^ 63) (rs : List Rec) (hw : ∀ r ∈ rs, r.WF) (fuel : Nat)
    (hf : rs.length + 65 ≤ fuel) :
    parseFile cap fuel (rs.flatMap Rec.bytes) = some (.ok (rs.flatMap Rec.calls, true)) := by
  have hc : CapOk (Buf.init cap (rs.flatMap Rec.bytes)) := by unfold CapOk Buf.init; simp; exact ⟨h1, h2⟩
  obtain ⟨b', rec', u1, u2, _, _, u5, _⟩ := loop_records rs (fuel - rs.length) (by omega) _ none [] hw
    (by rw [List.append_nil]; exact init_holds cap _) hc
  unfold parseFile
  have e : fuel - rs.length + rs.length = fuel := by omega
  rw [e] at u5
  rw [u5]
  have hst : loop (fuel - rs.length) b' rec' = some (.ok ([], true)) := by
    have := loop_tail (fuel - rs.length - 1) (by omega) b' rec' (.none 4) (by
      refine ⟨by simp [Rec.payload], by decide, trivial⟩) [] (by simp) (by simp [Rec.bytes, be_length]) u1 u2
    have e2 : fuel - rs.length - 1 + 1 = fuel - rs.length := by omega
    rw [e2] at this
    exact this
  rw [hst]
  simp [prepend]

/-- **C43 is false of the code for truncated files**: cutting off any file inside of its last record, at any byte, the result
is `true` as well, with the calls for the complete records. -/
theorem c43_truncated_refuted (cap : Nat) (h1 : 1 ≤ cap) (h2 : cap < 2 ^ 63) (rs : List Rec) (hw : ∀ r ∈ rs, r.WF)
    (r : Rec) (hr : r.WF) (s : List Byte) (hs : s <+: r.bytes) (hne : s.length < r.bytes.length) (fuel : Nat)
    (hf : rs.length + 65 ≤ fuel) :
    parseFile cap fuel (rs.flatMap Rec.bytes ++ s) = some (.ok (rs.flatMap Rec.calls, true)) := by
  have hc : CapOk (Buf.init cap (rs.flatMap Rec.bytes ++ s)) := by unfold CapOk Buf.init; simp; exact ⟨h1, h2⟩
  obtain ⟨b', rec', u1, u2, _, _, u5, _⟩ := loop_records rs (fuel - rs.length) (by omega) _ none s hw (init_holds cap _) hc
  unfold parseFile
  have e : fuel - rs.length + rs.length = fuel := by omega
  rw [e] at u5
  rw [u5]
  have := loop_tail (fuel - rs.length - 1) (by omega) b' rec' r hr s hs hne u1 u2
  have e2 : fuel - rs.length - 1 + 1 = fuel - rs.length := by omega
  rw [e2] at this
  rw [this]
  simp [prepend]

/-- **C43 is false of the code for a record whose length field is one**: behind any records, the parser never returns. -/
theorem c43_endless_refuted (cap : Nat) (h1 : 1 ≤ cap) (h2 : cap < 2 ^ 63) (rs : List Rec) (hw : ∀ r ∈ rs, r.WF)
    (s : List Byte) (fuel : Nat) (hf : rs.length + 65 ≤ fuel) :
    parseFile cap fuel (rs.flatMap Rec.bytes ++ (0 :: 1 :: s)) = none := by
  have hc : CapOk (Buf.init cap (rs.flatMap Rec.bytes ++ (0 :: 1 :: s))) := by unfold CapOk Buf.init; simp; exact ⟨h1, h2⟩
  obtain ⟨b', rec', u1, u2, _, _, u5, _⟩ := loop_records rs (fuel - rs.length) (by omega) _ none (0 :: 1 :: s) hw (init_holds cap _) hc
  unfold parseFile
  have e : fuel - rs.length + rs.length = fuel := by omega
  rw [e] at u5
  rw [u5]
  obtain ⟨f, hfe⟩ : ∃ f, fuel - rs.length = f + 1 := ⟨fuel - rs.length - 1, by omega⟩
  rw [hfe, loop]
  have : turn f b' rec' = none := by
    unfold turn
    obtain ⟨b1, p1, e1, e2, e3, e4⟩ := (parse_spec f (by omega) b' _ u1 u2 2 (by norm_num)).1 (by simp)
    rw [e1]
    simp only
    rw [if_neg (by simp), deref_points e2 (k := 0) (x := 0) (by rfl), deref_points e2 (k := 1) (x := 1) (by rfl)]
    simp only
    unfold body
    rw [if_neg (by decide)]
    have hbl : bodyLen ((0 : Byte).val * 256 + (1 : Byte).val) = 2 ^ 64 - 1 := by decide
    rw [hbl]
    unfold parse
    obtain ⟨l, _, g2, _⟩ := e3
    have hlt := e4.2
    rw [if_pos (by omega)]
    unfold room
    have hm : (2 ^ 64 - 1) * 2 % 2 ^ 64 = 2 ^ 64 - 2 := by norm_num
    rw [hm, if_pos (by omega), c42_endless f _ (by omega)]
    rfl
  rw [this]
  rfl

/-- A file that begins with a null record is undefined behaviour: there is no record yet. -/
theorem c43_null_first_refuted (cap : Nat) (h1 : 1 ≤ cap) (h2 : cap < 2 ^ 63) (s : List Byte) (fuel : Nat) (hf : 65 ≤ fuel) :
    parseFile cap fuel (0 :: 0 :: s) = some .ub := by
  have hc : CapOk (Buf.init cap (0 :: 0 :: s)) := by unfold CapOk Buf.init; simp; exact ⟨h1, h2⟩
  unfold parseFile
  obtain ⟨f, rfl⟩ : ∃ f, fuel = f + 1 := ⟨fuel - 1, by omega⟩
  rw [loop]
  obtain ⟨b1, p1, e1, e2, e3, e4⟩ := (parse_spec f (by omega) _ _ (init_holds cap _) hc 2 (by norm_num)).1 (by simp)
  have : turn f (Buf.init cap (0 :: 0 :: s)) none = some .ub := by
    unfold turn
    rw [e1]
    simp only
    rw [if_neg (by simp), deref_points e2 (k := 0) (x := 0) (by rfl), deref_points e2 (k := 1) (x := 0) (by rfl)]
    simp only
    unfold body
    rw [if_pos (by decide)]
    unfold dispatch deref
    simp only [Res.bind_ub]
  rw [this]

/-! null records behind the last record -/

/-- all of the memory is initialised -/
def Full (b : Buf) : Prop := ∃ l : List Byte, b.mem = l.map some

theorem mem_map_some {A : Type} {l : List (Option A)} : (∃ m : List A, l = m.map some) ↔ ∀ x ∈ l, x ≠ none := by
  constructor
  · rintro ⟨m, rfl⟩ x hx
    rw [List.mem_map] at hx
    obtain ⟨y, _, rfl⟩ := hx
    simp
  · intro h
    induction l with
    | nil => exact ⟨[], rfl⟩
    | cons a l ih =>
      obtain ⟨m, rfl⟩ := ih fun x hx => h x (by simp [hx])
      cases a with
      | none => exact absurd rfl (h none (by simp))
      | some y => exact ⟨y :: m, rfl⟩

/-- a request of two bytes does not allocate, and keeps the memory initialised -/
theorem parse2_full (fuel : Nat) (b : Buf) (hfull : Full b) (hp : b.ptr + b.len ≤ b.mem.length) (hcap : 4 ≤ b.mem.length)
    (b' : Buf) (r : Option Ptr × Int) (h : parse fuel b 2 = some (b', r)) :
    Full b' ∧ b'.gen = b.gen ∧ b'.mem.length = b.mem.length := by
  have key : ∀ b1 : Buf, Full b1 → b1.len ≤ b1.mem.length → ∀ b' r, take (fill b1) 2 = (b', r) →
      Full b' ∧ b'.gen = b1.gen ∧ b'.mem.length = b1.mem.length := by
    intro b1 hf1 hl1 b' r h
    have hff : Full (fill b1) ∧ (fill b1).mem.length = b1.mem.length := by
      refine ⟨?_, by unfold fill; simp; omega⟩
      unfold Full at hf1 ⊢
      rw [mem_map_some] at hf1 ⊢
      intro x hx
      unfold fill at hx
      simp only [List.mem_append] at hx
      rcases hx with (hx | hx) | hx
      · exact hf1 x (List.mem_of_mem_take hx)
      · rw [List.mem_map] at hx
        obtain ⟨y, _, rfl⟩ := hx
        simp
      · exact hf1 x (List.mem_of_mem_drop hx)
    unfold take at h
    split at h
    · injection h with h _
      subst h
      exact ⟨hff.1, rfl, hff.2⟩
    · injection h with h _
      subst h
      exact ⟨hff.1, rfl, hff.2⟩
  unfold parse at h
  split at h
  · unfold room at h
    have hm : 2 * 2 % 2 ^ 64 = 4 := by norm_num
    rw [hm, if_neg (by omega)] at h
    split at h
    · simp only [Option.map_some, Option.some.injEq] at h
      have hlm : (b.live ++ b.mem.drop b.len).length = b.mem.length := by
        unfold Buf.live; simp; omega
      have := key { b with mem := b.live ++ b.mem.drop b.len } (by
        unfold Full at hfull ⊢
        rw [mem_map_some] at hfull ⊢
        intro x hx
        simp only [List.mem_append] at hx
        rcases hx with hx | hx
        · exact hfull x (List.mem_of_mem_drop (List.mem_of_mem_take hx))
        · exact hfull x (List.mem_of_mem_drop hx)) (by simp only; rw [hlm]; omega) b' r h
      simp only at this
      rw [hlm] at this
      exact this
    · simp only [Option.map_some, Option.some.injEq] at h
      exact key b hfull (by omega) b' r h
  · simp only [Option.some.injEq] at h
    unfold take at h
    split at h
    · injection h with h _
      subst h
      exact ⟨hfull, rfl, rfl⟩
    · injection h with h _
      subst h
      exact ⟨hfull, rfl, rfl⟩

theorem deref_full {b : Buf} (h : Full b) {g off k : Nat} (hg : g = b.gen) (hk : off + k < b.mem.length) :
    ∃ x, deref b (some ⟨g, off⟩) k = .ok x ∧ b.mem[off + k]? = some (some x) := by
  obtain ⟨l, hl⟩ := h
  unfold deref
  simp only
  rw [if_pos hg]
  have : off + k < l.length := by rw [hl] at hk; simpa using hk
  refine ⟨l[off + k], ?_, ?_⟩
  · rw [hl, List.getElem?_map, List.getElem?_eq_getElem this]
    rfl
  · rw [hl, List.getElem?_map, List.getElem?_eq_getElem this]
    rfl

/-- without data every record is accepted -/
theorem dispatch_two {b : Buf} {p : Option Ptr} {x y : Byte} (h0 : deref b p 0 = .ok x) (h1 : deref b p 1 = .ok y) :
    ∃ cs, dispatch b p 2 = .ok cs ∧ (x = 0 → cs = [.int2 0 []]) := by
  have t2 : turns 2 2 = 0 := by decide
  have t4 : turns 2 4 = 0 := by decide
  have t8 : turns 2 8 = 0 := by decide
  unfold dispatch
  rw [h0, h1, Res.bind_ok, Res.bind_ok]
  simp only [t2, t4, t8, items, strLoop, Res.bind_ok]
  by_cases hx : x = 0
  · subst hx
    exact ⟨_, rfl, fun _ => rfl⟩
  · split <;> exact ⟨_, rfl, fun h => absurd h hx⟩

/-- one null record -/
theorem turn_null (fuel : Nat) (hf : 64 ≤ fuel) (b : Buf) (off : Nat) (hfull : Full b) (hcap : 4 ≤ b.mem.length) (hc : CapOk b)
    (hoff : off + 1 < b.mem.length) (N : Nat) (hb : Holds b (List.replicate (N + 2) 0)) :
    ∃ b' cs x, turn fuel b (some ⟨b.gen, off⟩) = some (.ok (.go cs b' (some ⟨b.gen, off⟩))) ∧ Full b' ∧ b'.gen = b.gen ∧
      b'.mem.length = b.mem.length ∧ CapOk b' ∧ Holds b' (List.replicate N 0) ∧
      b'.mem[off]? = some (some x) ∧ (x = 0 → cs = [.int2 0 []]) ∧
      (∃ p r, parse fuel b 2 = some (b', p, r)) := by
  obtain ⟨b1, p1, e1, e2, e3, e4⟩ := (parse_spec fuel hf b _ hb hc 2 (by norm_num)).1 (by simp)
  obtain ⟨l, _, hp, _⟩ := id hb
  obtain ⟨g1, g2, g3⟩ := parse2_full fuel b hfull hp hcap b1 _ e1
  have h0 : (List.replicate (N + 2) (0 : Byte)).take 2 = [0, 0] := by simp [List.replicate_succ]
  rw [h0] at e2
  rw [List.drop_replicate, Nat.add_sub_cancel] at e3
  obtain ⟨x, d0, m0⟩ := deref_full g1 (k := 0) g2.symm (by rw [g3]; omega : off + 0 < b1.mem.length)
  obtain ⟨y, d1, _⟩ := deref_full g1 (k := 1) g2.symm (by rw [g3]; omega : off + 1 < b1.mem.length)
  obtain ⟨cs, c1, c2⟩ := dispatch_two d0 d1
  refine ⟨b1, cs, x, ?_, g1, g2, g3, e4, e3, m0, c2, p1, _, e1⟩
  unfold turn
  rw [e1]
  simp only
  rw [if_neg (by simp), deref_points e2 (k := 0) (x := 0) (by rfl), deref_points e2 (k := 1) (x := 0) (by rfl)]
  have : body fuel b1 (some ⟨b.gen, off⟩) 2 ((0 : Byte).val * 256 + (0 : Byte).val) =
      some ((dispatch b1 (some ⟨b.gen, off⟩) 2).bind fun cs => .ok (.go cs b1 (some ⟨b.gen, off⟩))) := by
    unfold body
    rw [if_pos (by decide)]
  show body fuel b1 (some ⟨b.gen, off⟩) 2 ((0 : Byte).val * 256 + (0 : Byte).val) = _
  rw [this, c1]
  rfl

/-- null records up to the end of the file are accepted -/
theorem loop_null (n : Nat) : ∀ (N fuel : Nat), N ≤ n → N + 65 ≤ fuel → ∀ (b : Buf) (off : Nat), Full b → 4 ≤ b.mem.length →
    CapOk b → off + 1 < b.mem.length → Holds b (List.replicate N 0) →
    ∃ cs, loop fuel b (some ⟨b.gen, off⟩) = some (.ok (cs, true)) := by
  induction n with
  | zero =>
    intro N fuel hN hf b off h1 h2 h3 h4 h5
    have : N = 0 := by omega
    subst this
    obtain ⟨f, rfl⟩ : ∃ f, fuel = f + 1 := ⟨fuel - 1, by omega⟩
    exact ⟨_, loop_tail f (by omega) b _ (.none 4) ⟨by simp [Rec.payload], by decide, trivial⟩ [] (by simp) (by simp [Rec.bytes, be_length]) h5 h3⟩
  | succ n ih =>
    intro N fuel hN hf b off h1 h2 h3 h4 h5
    obtain ⟨f, rfl⟩ : ∃ f, fuel = f + 1 := ⟨fuel - 1, by omega⟩
    match N with
    | 0 => exact ⟨_, loop_tail f (by omega) b _ (.none 4) ⟨by simp [Rec.payload], by decide, trivial⟩ [] (by simp) (by simp [Rec.bytes, be_length]) h5 h3⟩
    | 1 => exact ⟨_, loop_tail f (by omega) b _ (.none 4) ⟨by simp [Rec.payload], by decide, trivial⟩ [0] (by decide) (by decide) h5 h3⟩
    | N + 2 =>
      obtain ⟨b', cs, x, e1, e2, e3, e4, e5, e6, e7, e8, e9⟩ := turn_null f (by omega) b off h1 h2 h3 h4 N h5
      obtain ⟨cs', e10⟩ := ih N f (by omega) (by omega) b' off e2 (by omega) e5 (by omega) e6
      rw [loop, e1]
      simp only
      rw [e3] at e10
      rw [e10]
      exact ⟨_, rfl⟩

/-- as soon as the buffer has been filled with zeros, the stale record is one of type 0 (`HEADER`) without data -/
theorem loop_stale (n : Nat) : ∀ (N fuel : Nat) (b : Buf), b.len ≤ n → N + 65 ≤ fuel → ∀ (off : Nat), Full b → 4 ≤ b.mem.length →
    CapOk b → off + 1 < b.mem.length → Holds b (List.replicate N 0) → b.len + b.mem.length ≤ N →
    ∃ cs, loop fuel b (some ⟨b.gen, off⟩) = some (.ok (cs, true)) ∧ Call.int2 0 [] ∈ cs := by
  induction n using Nat.strong_induction_on with
  | _ n ih =>
    intro N fuel b hn hf off h1 h2 h3 h4 h5 h6
    obtain ⟨f, rfl⟩ : ∃ f, fuel = f + 1 := ⟨fuel - 1, by omega⟩
    obtain ⟨M, rfl⟩ : ∃ M, N = M + 2 := ⟨N - 2, by omega⟩
    obtain ⟨b', cs, x, e1, e2, e3, e4, e5, e6, e7, e8, p, r, e9⟩ := turn_null f (by omega) b off h1 h2 h3 h4 M h5
    rw [loop, e1]
    simp only
    by_cases hl : 2 ≤ b.len
    · rw [parse_inplace f b 2 hl] at e9
      injection e9 with e9
      injection e9 with e9 _
      subst e9
      obtain ⟨cs', e10, e11⟩ := ih (n - 2) (by omega) M f _ (by simp only; omega) (by omega) off e2 h2 e5 h4 e6 (by simp only; omega)
      rw [e10]
      exact ⟨_, rfl, by simp [e11]⟩
    · obtain ⟨cs', e10⟩ := loop_null M M f (le_refl _) (by omega) b' off e2 (by omega) e5 (by omega) e6
      rw [e3] at e10
      rw [e10]
      refine ⟨_, rfl, ?_⟩
      have hx : x = 0 := by
        obtain ⟨l, g1, g2, g3⟩ := h5
        have hlen := live_length g1 g2
        have hz : ∀ y ∈ l ++ b.rest, y = 0 := by
          intro y hy
          rw [← g3] at hy
          exact List.eq_of_mem_replicate hy
        have hrest : b.mem.length ≤ b.rest.length := by
          have := congrArg List.length g3
          simp at this
          omega
        -- after the refill all of the memory are bytes of the file
        have hmem : ∀ b1 : Buf, b1.mem.length = b.mem.length → b1.len = b.len → b1.rest = b.rest →
            b1.mem.take b1.len = l.map some → (fill b1).mem[off]? = some (some x) → x = 0 := by
          intro b1 q1 q2 q3 q4 q5
          have hk : min (b1.mem.length - b1.len) b1.rest.length = b1.mem.length - b1.len := by
            rw [Nat.min_eq_left]; rw [q1, q3]; omega
          have hfm : (fill b1).mem = (l ++ b.rest.take (b.mem.length - b.len)).map some := by
            unfold fill
            simp only
            rw [hk, q4, q1, q2, q3, List.map_append]
            have : b.len + (b.mem.length - b.len) = b1.mem.length := by omega
            rw [this]
            simp
          rw [hfm, List.getElem?_map, Option.map_eq_some_iff] at q5
          obtain ⟨y, hy, hy2⟩ := q5
          injection hy2 with hy2
          subst hy2
          have := List.mem_of_getElem? hy
          apply hz
          rw [List.mem_append] at this ⊢
          rcases this with h | h
          · exact .inl h
          · exact .inr (List.mem_of_mem_take h)
        unfold parse at e9
        rw [if_pos (by omega)] at e9
        unfold room at e9
        have hm : 2 * 2 % 2 ^ 64 = 4 := by norm_num
        rw [hm, if_neg (by omega)] at e9
        have htk : ∀ b1, take (fill b1) 2 = (b', p, r) → b'.mem = (fill b1).mem := by
          intro b1 h
          unfold take at h
          split at h
          · injection h with h _; subst h; rfl
          · injection h with h _; subst h; rfl
        split at e9
        · simp only [Option.map_some, Option.some.injEq] at e9
          rw [htk _ e9] at e7
          refine hmem { b with mem := b.live ++ b.mem.drop b.len } ?_ rfl rfl ?_ e7
          · simp only; rw [g1]; simp; omega
          · simp only
            rw [g1, ← hlen]
            simp
        · simp only [Option.map_some, Option.some.injEq] at e9
          rw [htk _ e9] at e7
          refine hmem _ rfl rfl rfl ?_ e7
          have : b.len = 0 := by omega
          rw [this] at hlen ⊢
          rw [List.length_eq_zero_iff.1 hlen]
          rfl
      rw [e8 hx]
      simp

/-- **C43 is false of the code for padded files**: behind any records that fit into the buffer, zero bytes up to twice the
size of the buffer or more make the parser call the reader for a record of type `HEADER` without data, which is not in the
file. -/
theorem c43_padding_refuted (cap : Nat) (h1 : 4 ≤ cap) (h2 : cap < 2 ^ 63) (rs : List Rec) (hne : rs ≠ []) (hw : ∀ r ∈ rs, r.WF)
    (hfit : (rs.flatMap Rec.bytes).length ≤ cap) (N : Nat) (hN : 2 * cap ≤ N) (fuel : Nat) (hf : rs.length + N + 65 ≤ fuel) :
    ∃ cs, parseFile cap fuel (rs.flatMap Rec.bytes ++ List.replicate N 0) = some (.ok (cs, true)) ∧ Call.int2 0 [] ∈ cs := by
  generalize hB : rs.flatMap Rec.bytes = B at hfit
  have hfile : cap ≤ (B ++ List.replicate N (0 : Byte)).length := by simp; omega
  generalize hF : B ++ List.replicate N (0 : Byte) = F at hfile
  -- the first request fills the buffer
  obtain ⟨k, f1, f2, f3, f4, f5, f6, f7, f8, f9⟩ := fill_spec (Buf.init cap F) [] (by simp [Buf.init]) (by simp [Buf.init])
  have hlen : (fill (Buf.init cap F)).len = cap := by
    unfold fill Buf.init
    simp
    exact hfile
  have hmem : (fill (Buf.init cap F)).mem = (F.take cap).map some := by
    unfold fill Buf.init
    simp only [List.length_replicate, Nat.sub_zero, Nat.zero_add, List.take_zero, List.nil_append]
    rw [Nat.min_eq_left hfile]
    simp
  have hfirst : ∀ f rec, turn f (Buf.init cap F) rec = turn f (fill (Buf.init cap F)) rec := by
    intro f rec
    unfold turn
    have : parse f (Buf.init cap F) 2 = parse f (fill (Buf.init cap F)) 2 := by
      rw [parse_inplace f (fill (Buf.init cap F)) 2 (by rw [hlen]; omega)]
      unfold parse
      rw [if_pos (by simp [Buf.init])]
      unfold room
      have hm : 2 * 2 % 2 ^ 64 = 4 := by norm_num
      rw [hm, if_neg (by simp [Buf.init]; omega), if_neg (by simp [Buf.init]), Option.map_some]
      unfold take
      rw [if_pos (by rw [hlen]; omega)]
    rw [this]
  have hfirstl : ∀ f rec, loop f (Buf.init cap F) rec = loop f (fill (Buf.init cap F)) rec := by
    intro f rec
    cases f with
    | zero => rfl
    | succ f => rw [loop, loop, hfirst]
  have hhold : Holds (fill (Buf.init cap F)) (B ++ List.replicate N 0) := by
    refine ⟨_, f5, by rw [f4, f2, hlen]; simp [Buf.init], ?_⟩
    rw [f6, hF]
    simp [Buf.init]
  have hc : CapOk (fill (Buf.init cap F)) := by
    unfold CapOk; rw [f2]; simp [Buf.init]; omega
  obtain ⟨b', rec', u1, u2, _, _, u5, u6⟩ := loop_records rs (fuel - rs.length) (by omega) _ none (List.replicate N 0) hw
    (by rw [hB]; exact hhold) hc
  rw [hB] at u6
  obtain ⟨v1, v2⟩ := u6 (by rw [hlen]; exact hfit)
  obtain ⟨off, v3, v4⟩ := v2 hne
  unfold parseFile
  rw [hfirstl]
  have e : fuel - rs.length + rs.length = fuel := by omega
  rw [e] at u5
  rw [u5]
  have hbm : b'.mem.length = cap := by rw [v1]; simp only; rw [f2]; simp [Buf.init]
  have hbg : b'.gen = (fill (Buf.init cap F)).gen := by rw [v1]
  have hbl : b'.len = cap - B.length := by rw [v1]; simp only; rw [hlen]
  rw [v3, ← hbg]
  rw [f4] at v4
  obtain ⟨cs, w1, w2⟩ := loop_stale b'.len N (fuel - rs.length) b' (le_refl _) (by omega) off
    ⟨F.take cap, by rw [v1]; exact hmem⟩ (by omega) u2 (by omega) u1 (by omega)
  rw [w1]
  exact ⟨_, rfl, by simp [w2]⟩

/-- example: records of every kind, well formed -/
example : let rs : List Rec := [.int2 0 [600], .real8 3 [⟨false, 62, 0x4189374bc6a7f0⟩, ⟨true, 64, 1⟩], .str 6 [65, 66, 67],
      .none 8, .int4 16 [-1, 70000], .bits 26 [0x8000], .other 24 [1, 2], .none 4]
    (∀ r ∈ rs, r.WF) ∧ (rs.flatMap Rec.bytes).length ≤ 4096 := by
  refine ⟨?_, by decide⟩
  intro r hr
  simp at hr
  rcases hr with rfl | rfl | rfl | rfl | rfl | rfl | rfl | rfl <;>
    refine ⟨by decide, by decide, ?_⟩ <;> simp [Real8.Fits]

/-- example: what the parser does with a file of three records, the last cut short -/
example : parseFile 4 70 [0, 6, 0, 2, 2, 88, 0, 8, 6, 6, 65, 66, 67, 0, 0, 4, 4] =
    some (.ok ([.int2 0 [600], .str 6 [65, 66, 67]], true)) := by decide +kernel

end Ecad.Gds
