import Verif.Thermal.ProfileModel
import Verif.Dmc.WriteProps
import Mathlib.Tactic.Positivity
/-!
C117: the text files of metal fractions say what the grid is, which box each tile has and what part of it is metal in each layer.
-/
namespace Ecad.Profile
open Ctm (Bytes digs isSpace digitsVal)
open Dmc (joinSp eol Words IsInt IsDec IsWord Signed dtext dval Nearest)

/-! ## what a text says -/

/-- the text of a number, maybe with an exponent -/
def IsNum (t : Bytes) (q : ℚ) : Prop :=
  IsDec t q ∨ ∃ u v p, ∃ i : Int, IsDec u v ∧ IsInt p i ∧ t = u ++ 101 :: p ∧ q = v * 10 ^ i

/-- the text has `d` digits after the point, and its number is nearest to `x` among those -/
def SaysFixed (d : Nat) (t : Bytes) (x : ℚ) : Prop := ∃ k : Int, IsDec t ((k : ℚ) / 10 ^ d) ∧ |(k : ℚ) / 10 ^ d - x| ≤ 1 / 2 / 10 ^ d

/-- the number of the text differs from `x` by five millionths of it at most, and is `x` if six digits are enough for that -/
def SaysSig (t : Bytes) (x : ℚ) : Prop :=
  ∃ q, IsNum t q ∧ |q - x| ≤ |x| * (5 / 1000000) ∧ ∀ n j : Int, |n| < 1000000 → x = (n : ℚ) * 10 ^ j → q = x

/-! ## digits -/

theorem dval_snoc (a : List Nat) (d : Nat) : dval (a ++ [d]) = 10 * dval a + d := by
  unfold dval
  rw [List.reverse_append, List.reverse_singleton, List.singleton_append, Nat.ofDigits_cons]
  push_cast
  ring

theorem dval_append (a b : List Nat) : dval (a ++ b) = dval a * 10 ^ b.length + dval b := by
  induction b using List.reverseRecOn with
  | nil => simp [dval]
  | append_singleton b d ih =>
    rw [← List.append_assoc, dval_snoc, ih, dval_snoc, List.length_append, List.length_singleton, pow_succ]
    ring

theorem dval_zeros (n : Nat) : dval (List.replicate n 0) = 0 := by
  induction n with
  | zero => simp [dval]
  | succ n ih => rw [List.replicate_succ', dval_snoc, ih]

theorem dval_cons (d : Nat) (a : List Nat) : dval (d :: a) = d * 10 ^ a.length + dval a := by
  have := dval_append [d] a
  simpa [dval] using this

theorem dtext_append (a b : List Nat) : dtext (a ++ b) = dtext a ++ dtext b := by simp [dtext]

theorem dtext_zeros (n : Nat) : dtext (List.replicate n 0) = List.replicate n 48 := by simp [dtext]

theorem digN_text (d n : Nat) : ∃ a, a.length = d ∧ (∀ x ∈ a, x < 10) ∧ digN d n = dtext a ∧ dval a = n % 10 ^ d := by
  induction d generalizing n with
  | zero => exact ⟨[], rfl, by simp, rfl, by simp [dval, Nat.mod_one]⟩
  | succ d ih =>
    obtain ⟨a, h1, h2, h3, h4⟩ := ih (n / 10)
    refine ⟨a ++ [n % 10], by simp [h1], ?_, ?_, ?_⟩
    · intro x hx
      rcases List.mem_append.1 hx with hx | hx
      · exact h2 x hx
      · rw [List.mem_singleton.1 hx]
        exact Nat.mod_lt _ (by norm_num)
    · rw [digN, h3, dtext_append]
      rfl
    · rw [dval_snoc, h4, pow_succ, mul_comm (10 ^ d) 10, Nat.mod_mul]
      ring

theorem isDec_fixText (d : Nat) (k : Int) : IsDec (fixText d k) ((k : ℚ) / 10 ^ d) := by
  obtain ⟨a, h0, h1, h2, h3⟩ := Dmc.digs_text (k.natAbs / 10 ^ d)
  obtain ⟨b, g0, g1, g2, g3⟩ := digN_text d (k.natAbs % 10 ^ d)
  rw [Nat.mod_mod] at g3
  have hp : (10 : ℚ) ^ d ≠ 0 := by positivity
  have hn : ((k.natAbs : Nat) : ℚ) / 10 ^ d = ((k.natAbs / 10 ^ d : Nat) : ℚ) + ((k.natAbs % 10 ^ d : Nat) : ℚ) / 10 ^ d := by
    have hq : ((10 ^ d * (k.natAbs / 10 ^ d) + k.natAbs % 10 ^ d : Nat) : ℚ) = (k.natAbs : ℚ) := by rw [Nat.div_add_mod]
    rw [← hq, Nat.cast_add, Nat.cast_mul, Nat.cast_pow, Nat.cast_ofNat]
    field_simp
  unfold fixText
  by_cases hk : k < 0
  · rw [if_pos hk]
    refine ⟨[45], -1, a, b, true, .inr (.inr ⟨rfl, rfl⟩), .inl h0, h1, g1, by simp, by rw [h2, g2, if_pos rfl], ?_⟩
    rw [h3, g3, g0, ← hn]
    have : (k : ℚ) = -(k.natAbs : ℚ) := by
      have : k = -(k.natAbs : Int) := by omega
      exact_mod_cast this
    rw [this]
    push_cast
    ring
  · rw [if_neg hk]
    refine ⟨[], 1, a, b, true, .inl ⟨rfl, rfl⟩, .inl h0, h1, g1, by simp, by rw [h2, g2, if_pos rfl], ?_⟩
    rw [h3, g3, g0, ← hn]
    have : (k : ℚ) = (k.natAbs : ℚ) := by
      have h : ((k.natAbs : Int) : ℚ) = (k : ℚ) := congrArg _ (by omega)
      rw [← h]
      rfl
    rw [this]
    push_cast
    ring

variable {rnd : ℚ → Int}

theorem says_fixed (hr : Nearest rnd) (d : Nat) (x : ℚ) : SaysFixed d (fixed rnd d x) x := by
  refine ⟨rnd (x * 10 ^ d), isDec_fixText d _, ?_⟩
  have hp : (0 : ℚ) < 10 ^ d := by positivity
  have h := hr (x * 10 ^ d)
  rw [show (rnd (x * 10 ^ d) : ℚ) / 10 ^ d - x = ((rnd (x * 10 ^ d) : ℚ) - x * 10 ^ d) / 10 ^ d by field_simp, abs_div, abs_of_pos hp]
  exact div_le_div_of_nonneg_right h hp.le

theorem word_fixed (d : Nat) (x : ℚ) : IsWord (fixed rnd d x) := Dmc.isWord_dec (isDec_fixText d _)

/-! ## six significant digits -/

/-- the number printed for a positive one -/
def sigPos (rnd : ℚ → Int) (x : ℚ) : ℚ := ((sigParts rnd x).1 : ℚ) * 10 ^ ((sigParts rnd x).2 - 5)

theorem nearest_int (hr : Nearest rnd) (n : Int) : rnd (n : ℚ) = n := by
  have h := abs_le.1 (hr n)
  have h1 : (-1 : ℚ) < ((rnd n - n : Int) : ℚ) := by push_cast; linarith [h.1]
  have h2 : ((rnd n - n : Int) : ℚ) < 1 := by push_cast; linarith [h.2]
  have h1' : (-1 : Int) < rnd n - n := by exact_mod_cast h1
  have h2' : rnd n - n < (1 : Int) := by exact_mod_cast h2
  omega

/-- the digits before they are adjusted -/
theorem sig_raw (hr : Nearest rnd) {x : ℚ} (hx : 0 < x) : ∃ (m : Nat), 100000 ≤ m ∧ m ≤ 1000000 ∧ rnd (x / 10 ^ (Int.log 10 x - 5)) = (m : Int) ∧
    |(m : ℚ) * 10 ^ (Int.log 10 x - 5) - x| ≤ 1 / 2 * 10 ^ (Int.log 10 x - 5) := by
  set e := Int.log 10 x with he
  have hp : (0 : ℚ) < 10 ^ (e - 5) := zpow_pos (by norm_num) _
  have h1 : (10 : ℚ) ^ e ≤ x := by
    have := Int.zpow_log_le_self (b := 10) (r := x) (by norm_num) hx
    exact_mod_cast this
  have h2 : x < (10 : ℚ) ^ (e + 1) := by
    have := Int.lt_zpow_succ_log_self (b := 10) (by norm_num) x
    exact_mod_cast this
  have e1 : (10 : ℚ) ^ e = 100000 * 10 ^ (e - 5) := by
    rw [show e = 5 + (e - 5) by ring, zpow_add₀ (by norm_num), show 5 + (e - 5) - 5 = e - 5 by ring]
    norm_num
  have e2 : (10 : ℚ) ^ (e + 1) = 1000000 * 10 ^ (e - 5) := by
    rw [show e + 1 = 6 + (e - 5) by ring, zpow_add₀ (by norm_num)]
    norm_num
  have l1 : 100000 ≤ x / 10 ^ (e - 5) := by rw [le_div_iff₀ hp]; linarith
  have l2 : x / 10 ^ (e - 5) < 1000000 := by rw [div_lt_iff₀ hp]; linarith
  have hn := hr (x / 10 ^ (e - 5))
  have hab := abs_le.1 hn
  have r1 : (100000 : Int) ≤ rnd (x / 10 ^ (e - 5)) := by
    by_contra hc
    have : ((rnd (x / 10 ^ (e - 5)) : Int) : ℚ) ≤ 99999 := by exact_mod_cast (by omega : rnd (x / 10 ^ (e - 5)) ≤ 99999)
    linarith [hab.1]
  have r2 : rnd (x / 10 ^ (e - 5)) ≤ 1000000 := by
    by_contra hc
    have : (1000001 : ℚ) ≤ ((rnd (x / 10 ^ (e - 5)) : Int) : ℚ) := by exact_mod_cast (by omega : 1000001 ≤ rnd (x / 10 ^ (e - 5)))
    linarith [hab.2]
  refine ⟨(rnd (x / 10 ^ (e - 5))).toNat, by omega, by omega, by omega, ?_⟩
  have ec : (((rnd (x / 10 ^ (e - 5))).toNat : Nat) : ℚ) = (rnd (x / 10 ^ (e - 5)) : ℚ) := by
    have : (((rnd (x / 10 ^ (e - 5))).toNat : Nat) : Int) = rnd (x / 10 ^ (e - 5)) := Int.toNat_of_nonneg (by omega)
    exact_mod_cast this
  rw [ec, show (rnd (x / 10 ^ (e - 5)) : ℚ) * 10 ^ (e - 5) - x = ((rnd (x / 10 ^ (e - 5)) : ℚ) - x / 10 ^ (e - 5)) * 10 ^ (e - 5) by
    field_simp, abs_mul, abs_of_pos hp]
  exact mul_le_mul_of_nonneg_right hn hp.le

theorem sig_parts (hr : Nearest rnd) {x : ℚ} (hx : 0 < x) : 100000 ≤ (sigParts rnd x).1 ∧ (sigParts rnd x).1 < 1000000 ∧
    sigPos rnd x = (rnd (x / 10 ^ (Int.log 10 x - 5)) : ℚ) * 10 ^ (Int.log 10 x - 5) ∧ |sigPos rnd x - x| ≤ x * (5 / 1000000) := by
  obtain ⟨m, h1, h2, h3, h4⟩ := sig_raw hr hx
  have hle : (10 : ℚ) ^ (Int.log 10 x - 5) * 100000 ≤ x := by
    have := Int.zpow_log_le_self (b := 10) (r := x) (by norm_num) hx
    have h : (10 : ℚ) ^ (Int.log 10 x) ≤ x := by exact_mod_cast this
    refine le_trans (le_of_eq ?_) h
    rw [zpow_sub₀ (by norm_num)]
    norm_num
  have key : sigPos rnd x = (m : ℚ) * 10 ^ (Int.log 10 x - 5) ∧ 100000 ≤ (sigParts rnd x).1 ∧ (sigParts rnd x).1 < 1000000 := by
    unfold sigPos sigParts
    simp only [h3, Int.toNat_natCast]
    by_cases hm : m = 1000000
    · subst hm
      simp only [if_true]
      refine ⟨?_, le_refl _, by norm_num⟩
      rw [show Int.log 10 x + 1 - 5 = 1 + (Int.log 10 x - 5) by ring, zpow_add₀ (by norm_num)]
      push_cast
      ring
    · simp only [if_neg hm]
      exact ⟨trivial, h1, by omega⟩
  refine ⟨key.2.1, key.2.2, ?_, ?_⟩
  · rw [key.1, h3]
    rfl
  · rw [key.1]
    linarith

/-- the number printed -/
def sigVal (rnd : ℚ → Int) (x : ℚ) : ℚ := if x = 0 then 0 else (if x < 0 then -1 else 1) * sigPos rnd |x|

theorem sig_close (hr : Nearest rnd) (x : ℚ) : |sigVal rnd x - x| ≤ |x| * (5 / 1000000) := by
  unfold sigVal
  by_cases h0 : x = 0
  · subst h0
    simp
  · rw [if_neg h0]
    have h := (sig_parts hr (abs_pos.2 h0)).2.2.2
    by_cases hn : x < 0
    · rw [if_pos hn]
      have e : x = -|x| := by rw [abs_of_neg hn]; ring
      have : |-1 * sigPos rnd |x| - x| = |sigPos rnd |x| - (|x|)| := by
        conv_lhs => rw [← abs_neg]
        congr 1
        rw [abs_of_neg hn]
        ring
      rw [this]
      exact h
    · rw [if_neg hn, one_mul]
      have e : |x| = x := abs_of_nonneg (by linarith)
      rw [e] at h ⊢
      exact h

/-- the digits that are left -/
theorem strip_digits (a : List Nat) : ∃ a' k, a = a' ++ List.replicate k 0 ∧ strip (dtext a) = dtext a' ∧ (dval a ≠ 0 → a' ≠ []) := by
  induction a using List.reverseRecOn with
  | nil => exact ⟨[], 0, rfl, rfl, by simp [dval]⟩
  | append_singleton a d ih =>
    by_cases hd : d = 0
    · subst hd
      obtain ⟨a', k, h1, h2, h3⟩ := ih
      refine ⟨a', k + 1, ?_, ?_, ?_⟩
      · rw [List.replicate_succ', ← List.append_assoc, ← h1]
      · have : strip (dtext (a ++ [0])) = strip (dtext a) := by
          unfold strip
          rw [dtext_append, List.reverse_append]
          simp [dtext]
        rw [this, h2]
      · rw [dval_snoc]
        intro h
        exact h3 (by omega)
    · refine ⟨a ++ [d], 0, by simp, ?_, by simp⟩
      unfold strip
      rw [dtext_append, List.reverse_append]
      have : (dtext [d]).reverse = [48 + d] := rfl
      rw [this, List.singleton_append, List.dropWhile_cons_of_neg (by simp; omega)]
      simp [dtext]

theorem isInt_exp (e : Int) : IsInt (expText e) e := by
  obtain ⟨a, h0, h1, h2, h3⟩ := Dmc.digs_text e.natAbs
  have hs : Signed [if e < 0 then 45 else 43] (if e < 0 then -1 else 1) := by
    split
    · exact .inr (.inr ⟨rfl, rfl⟩)
    · exact .inr (.inl ⟨rfl, rfl⟩)
  unfold expText
  by_cases h : e.natAbs < 10
  · rw [if_pos h]
    refine ⟨_, _, 0 :: a, hs, by simp, ?_, ?_, ?_⟩
    · intro d hd
      rcases List.mem_cons.1 hd with rfl | hd
      · norm_num
      · exact h1 d hd
    · rw [h2]
      rfl
    · rw [dval_cons, h3]
      split <;> omega
  · rw [if_neg h]
    refine ⟨_, _, a, hs, h0, h1, by rw [h2]; rfl, ?_⟩
    rw [h3]
    split <;> omega

/-- digits with an exponent, after a sign -/
theorem gPos_num {sg : Bytes} {e0 : Int} (hs : Signed sg e0) {a : List Nat} (ha : a ≠ []) (h10 : ∀ d ∈ a, d < 10) (e : Int) :
    IsNum (sg ++ gPos (dtext a) e) ((e0 : ℚ) * ((dval a : ℚ) * 10 ^ (e + 1 - (a.length : Int)))) := by
  have hten : (10 : ℚ) ≠ 0 := by norm_num
  unfold gPos
  by_cases hx : e < -4 ∨ 6 ≤ e
  · rw [if_pos hx]
    obtain ⟨d, t, rfl⟩ := List.exists_cons_of_ne_nil ha
    refine .inr ⟨sg ++ (dtext [d] ++ if (!t.isEmpty) then 46 :: dtext t else []), (e0 : ℚ) * ((dval [d] : ℚ) + (dval t : ℚ) / 10 ^ t.length), expText e, e,
      ⟨sg, e0, [d], t, !t.isEmpty, hs, .inl (by simp), ?_, ?_, ?_, rfl, rfl⟩, isInt_exp e, ?_, ?_⟩
    · intro x hx
      rw [List.mem_singleton.1 hx]
      exact h10 d (by simp)
    · exact fun x hx => h10 x (by simp [hx])
    · intro h
      simpa using h
    · cases t with
      | nil => simp [dtext]
      | cons y t => simp [dtext]
    · have : ((d :: t).length : Int) = t.length + 1 := by simp
      rw [this, show e + 1 - ((t.length : Int) + 1) = e - t.length by ring, zpow_sub₀ hten, dval_cons, zpow_natCast]
      have : dval [d] = d := by simp [dval]
      rw [this]
      push_cast
      field_simp
  · rw [if_neg hx]
    push Not at hx
    left
    by_cases he : 0 ≤ e
    · rw [if_pos he]
      obtain ⟨n, rfl⟩ : ∃ n : Nat, e = n := ⟨e.toNat, by omega⟩
      have hl : (dtext a).length = a.length := by simp [dtext]
      simp only [Int.toNat_natCast, hl]
      by_cases hle : a.length ≤ n + 1
      · rw [if_pos hle]
        refine ⟨sg, e0, a ++ List.replicate (n + 1 - a.length) 0, [], false, hs, .inl (by simp [ha]), ?_, by simp, by simp, ?_, ?_⟩
        · intro d hd
          rcases List.mem_append.1 hd with hd | hd
          · exact h10 d hd
          · rw [(List.mem_replicate.1 hd).2]
            norm_num
        · rw [dtext_append, dtext_zeros]
          simp
        · rw [dval_append, dval_zeros, List.length_replicate, add_zero]
          have : ((n : Int) + 1 - (a.length : Int)) = ((n + 1 - a.length : Nat) : Int) := by omega
          rw [this, zpow_natCast]
          push_cast
          simp [dval]
      · rw [if_neg hle]
        push Not at hle
        refine ⟨sg, e0, a.take (n + 1), a.drop (n + 1), true, hs, .inl ?_, fun d hd => h10 d (List.mem_of_mem_take hd), fun d hd => h10 d (List.mem_of_mem_drop hd),
          by simp, ?_, ?_⟩
        · intro h
          have := congrArg List.length h
          rw [List.length_take, List.length_nil] at this
          omega
        · simp [dtext, List.map_take, List.map_drop]
        · have hv : dval a = dval (a.take (n + 1)) * 10 ^ (a.drop (n + 1)).length + dval (a.drop (n + 1)) := by
            rw [← dval_append, List.take_append_drop]
          have hlen : (a.drop (n + 1)).length = a.length - (n + 1) := List.length_drop
          rw [hv, hlen, show ((n : Int) + 1 - (a.length : Int)) = -((a.length - (n + 1) : Nat) : Int) by omega, zpow_neg, zpow_natCast]
          push_cast
          field_simp
    · rw [if_neg he]
      refine ⟨sg, e0, [0], List.replicate ((-e).toNat - 1) 0 ++ a, true, hs, .inl (by simp), by simp, ?_, by simp, ?_, ?_⟩
      · intro d hd
        rcases List.mem_append.1 hd with hd | hd
        · rw [(List.mem_replicate.1 hd).2]
          norm_num
        · exact h10 d hd
      · rw [if_pos rfl, dtext_append, dtext_zeros]
        rfl
      · rw [dval_append, dval_zeros, List.length_append, List.length_replicate]
        have : (e + 1 - (a.length : Int)) = -(((-e).toNat - 1 + a.length : Nat) : Int) := by omega
        rw [this, zpow_neg, zpow_natCast]
        have h0 : dval [0] = 0 := by simp [dval]
        rw [h0]
        push_cast
        field_simp
        ring

theorem sig_num (hr : Nearest rnd) (x : ℚ) : IsNum (gText rnd x) (sigVal rnd x) := by
  unfold gText sigVal
  by_cases h0 : x = 0
  · rw [if_pos h0, if_pos h0]
    exact .inl ⟨[], 1, [0], [], false, .inl ⟨rfl, rfl⟩, .inl (by simp), by simp, by simp, by simp, rfl, by simp [dval]⟩
  · rw [if_neg h0, if_neg h0]
    have hp := sig_parts hr (abs_pos.2 h0)
    unfold sigPos at hp ⊢
    set p := sigParts rnd |x| with hpd
    obtain ⟨a, h1, h2, h3, h4⟩ := digN_text 6 p.1
    rw [Nat.mod_eq_of_lt (by norm_num; exact hp.2.1)] at h4
    obtain ⟨a', k, g1, g2, g3⟩ := strip_digits a
    have hne : a' ≠ [] := g3 (by omega)
    have h10 : ∀ d ∈ a', d < 10 := fun d hd => h2 d (by rw [g1]; exact List.mem_append_left _ hd)
    have hlen : a'.length + k = 6 := by rw [← h1, g1]; simp
    have hv : (p.1 : ℚ) * 10 ^ (p.2 - 5) = (dval a' : ℚ) * 10 ^ (p.2 + 1 - (a'.length : Int)) := by
      rw [← h4, g1, dval_append, dval_zeros, List.length_replicate, add_zero]
      push_cast
      rw [mul_assoc, ← zpow_natCast, ← zpow_add₀ (by norm_num)]
      congr 2
      omega
    have hs : Signed (if x < 0 then [45] else []) (if x < 0 then -1 else 1) := by
      split
      · exact .inr (.inr ⟨rfl, rfl⟩)
      · exact .inl ⟨rfl, rfl⟩
    have := gPos_num hs hne h10 p.2
    dsimp only
    rw [h3, g2, hv]
    have ec : ((if x < 0 then (-1 : Int) else 1 : Int) : ℚ) = if x < 0 then (-1 : ℚ) else 1 := by split <;> simp
    rw [ec] at this
    exact this

theorem log_le_of_lt {x : ℚ} (hx : 0 < x) {k : Int} (h : x < 10 ^ k) : Int.log 10 x < k := by
  have h1 : (10 : ℚ) ^ (Int.log 10 x) ≤ x := by
    have := Int.zpow_log_le_self (b := 10) (r := x) (by norm_num) hx
    exact_mod_cast this
  exact (zpow_lt_zpow_iff_right₀ (by norm_num : (1 : ℚ) < 10)).1 (lt_of_le_of_lt h1 h)

theorem le_log_of_le {x : ℚ} {k : Int} (h : (10 : ℚ) ^ k ≤ x) : k ≤ Int.log 10 x := by
  have h2 : x < (10 : ℚ) ^ (Int.log 10 x + 1) := by
    have := Int.lt_zpow_succ_log_self (b := 10) (by norm_num) x
    exact_mod_cast this
  have := (zpow_lt_zpow_iff_right₀ (by norm_num : (1 : ℚ) < 10)).1 (lt_of_le_of_lt h h2)
  omega

theorem sigPos_exact (hr : Nearest rnd) {n j : Int} (h0 : 0 < n) (h6 : n < 1000000) : sigPos rnd ((n : ℚ) * 10 ^ j) = (n : ℚ) * 10 ^ j := by
  have hp : (0 : ℚ) < 10 ^ j := zpow_pos (by norm_num) _
  have hn : (0 : ℚ) < n := by exact_mod_cast h0
  have hx : (0 : ℚ) < (n : ℚ) * 10 ^ j := mul_pos hn hp
  have hlt : (n : ℚ) * 10 ^ j < 10 ^ (6 + j) := by
    rw [zpow_add₀ (by norm_num)]
    refine mul_lt_mul_of_pos_right ?_ hp
    have : (n : ℚ) < 1000000 := by exact_mod_cast h6
    norm_num
    exact this
  have hlog := log_le_of_lt hx hlt
  rw [(sig_parts hr hx).2.2.1]
  set e := Int.log 10 ((n : ℚ) * 10 ^ j)
  have hpe : (10 : ℚ) ^ (e - 5) ≠ 0 := (zpow_pos (by norm_num) _).ne'
  have hq : (n : ℚ) * 10 ^ j / 10 ^ (e - 5) = ((n * 10 ^ (j - (e - 5)).toNat : Int) : ℚ) := by
    rw [mul_div_assoc, ← zpow_sub₀ (by norm_num)]
    push_cast
    rw [← zpow_natCast, Int.toNat_of_nonneg (by omega)]
  rw [hq, nearest_int hr, ← hq]
  field_simp

theorem sig_exact (hr : Nearest rnd) {n : Int} (h6 : |n| < 1000000) (j : Int) : sigVal rnd ((n : ℚ) * 10 ^ j) = (n : ℚ) * 10 ^ j := by
  have hp : (0 : ℚ) < 10 ^ j := zpow_pos (by norm_num) _
  unfold sigVal
  by_cases h0 : (n : ℚ) * 10 ^ j = 0
  · rw [if_pos h0, h0]
  · rw [if_neg h0]
    have hn0 : n ≠ 0 := by
      rintro rfl
      simp at h0
    rw [abs_mul, abs_of_pos hp, ← Int.cast_abs, sigPos_exact hr (abs_pos.2 hn0) h6, Int.cast_abs]
    by_cases hn : n < 0
    · have hnq : (n : ℚ) < 0 := by exact_mod_cast hn
      rw [if_pos (mul_neg_of_neg_of_pos hnq hp), abs_of_neg hnq]
      ring
    · have hnq : (0 : ℚ) ≤ n := by exact_mod_cast (by omega : 0 ≤ n)
      rw [if_neg (not_lt.2 (mul_nonneg hnq hp.le)), abs_of_nonneg hnq, one_mul]

theorem says_sig (hr : Nearest rnd) (x : ℚ) : SaysSig (gText rnd x) x :=
  ⟨_, sig_num hr x, sig_close hr x, fun n j h e => by rw [e]; exact sig_exact hr h j⟩

/-- numbers that agree in the first six digits have the same text -/
theorem sig_same (hr : Nearest rnd) {n : Nat} (h5 : 100000 ≤ n) (h6 : n < 1000000) (j : Int) {d : ℚ} (h0 : 0 ≤ d) (hd : d < 10 ^ j / 2) :
    gText rnd ((n : ℚ) * 10 ^ j + d) = gPos (strip (digN 6 n)) (j + 5) := by
  have hp : (0 : ℚ) < 10 ^ j := zpow_pos (by norm_num) _
  have h5q : (100000 : ℚ) ≤ n := by exact_mod_cast h5
  have h6q : (n : ℚ) ≤ 999999 := by exact_mod_cast (by omega : n ≤ 999999)
  have hx : (0 : ℚ) < (n : ℚ) * 10 ^ j + d := by nlinarith
  have e5 : (10 : ℚ) ^ (j + 5) = 100000 * 10 ^ j := by rw [add_comm, zpow_add₀ (by norm_num)]; norm_num
  have e6 : (10 : ℚ) ^ (j + 6) = 1000000 * 10 ^ j := by rw [add_comm, zpow_add₀ (by norm_num)]; norm_num
  have hl : Int.log 10 ((n : ℚ) * 10 ^ j + d) = j + 5 := by
    have a := log_le_of_lt hx (k := j + 6) (by rw [e6]; nlinarith)
    have b := le_log_of_le (x := (n : ℚ) * 10 ^ j + d) (k := j + 5) (by rw [e5]; nlinarith)
    omega
  have hm : rnd (((n : ℚ) * 10 ^ j + d) / 10 ^ (j + 5 - 5)) = (n : Int) := by
    rw [show j + 5 - 5 = j by ring, show ((n : ℚ) * 10 ^ j + d) / 10 ^ j = n + d / 10 ^ j by field_simp]
    have hd0 : 0 ≤ d / 10 ^ j := div_nonneg h0 hp.le
    have hd1 : d / 10 ^ j < 1 / 2 := by rw [div_lt_iff₀ hp]; linarith
    have h := abs_le.1 (hr (n + d / 10 ^ j))
    have h1 : (-1 : ℚ) < ((rnd (n + d / 10 ^ j) - n : Int) : ℚ) := by push_cast; linarith [h.1]
    have h2 : ((rnd (n + d / 10 ^ j) - n : Int) : ℚ) < 1 := by push_cast; linarith [h.2]
    have h1' : (-1 : Int) < rnd (n + d / 10 ^ j) - n := by exact_mod_cast h1
    have h2' : rnd (n + d / 10 ^ j) - n < (1 : Int) := by exact_mod_cast h2
    omega
  have hs : sigParts rnd |(n : ℚ) * 10 ^ j + d| = (n, j + 5) := by
    rw [abs_of_pos hx]
    unfold sigParts
    simp only [hl, hm, Int.toNat_natCast]
    rw [if_neg (by omega)]
  unfold gText
  rw [if_neg hx.ne']
  dsimp only
  rw [hs, if_neg (not_lt.2 hx.le)]
  rfl

/-- from a million on, the printed numbers are tens -/
theorem sig_tens (hr : Nearest rnd) {x : ℚ} (hx : 1000000 ≤ x) : ∃ z : Int, sigVal rnd x = 10 * z := by
  have h0 : 0 < x := by linarith
  have hl := le_log_of_le (x := x) (k := 6) (by norm_num; exact hx)
  unfold sigVal
  rw [if_neg h0.ne', if_neg (not_lt.2 h0.le), one_mul, abs_of_pos h0, (sig_parts hr h0).2.2.1]
  refine ⟨rnd (x / 10 ^ (Int.log 10 x - 5)) * 10 ^ (Int.log 10 x - 6).toNat, ?_⟩
  push_cast
  rw [← zpow_natCast, Int.toNat_of_nonneg (by omega), show Int.log 10 x - 5 = 1 + (Int.log 10 x - 6) by ring, zpow_add₀ (by norm_num)]
  ring

theorem word_num {t : Bytes} {q : ℚ} (h : IsNum t q) : IsWord t := by
  rcases h with h | ⟨u, v, p, i, h1, h2, rfl, _⟩
  · exact Dmc.isWord_dec h
  · have a := Dmc.isWord_dec h1
    have b := Dmc.isWord_int h2
    refine ⟨by simp, fun c hc => ?_⟩
    rcases List.mem_append.1 hc with hc | hc
    · exact a.2 c hc
    · rcases List.mem_cons.1 hc with rfl | hc
      · rfl
      · exact b.2 c hc

theorem word_sig (hr : Nearest rnd) (x : ℚ) : IsWord (gText rnd x) := word_num (sig_num hr x)

end Ecad.Profile
