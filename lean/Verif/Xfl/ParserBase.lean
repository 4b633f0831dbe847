import Verif.Xfl.ParserSpec
import Mathlib.Tactic.Ring
import Mathlib.Tactic.Linarith
import Mathlib.Tactic.FieldSimp
/-!
The parsers of tokens read the texts of tokens; sequences of parsers read sequences of tokens.
-/
namespace Ecad.XflP
open Ecad.Xfl

/-! ### blanks and comments -/

theorem isSpace_iff (c : Char) : isSpace c = true ↔ Blank c := by
  unfold isSpace Blank; exact List.contains_iff_mem

theorem skipIn_comment (t : Str) (c : Char) (s : Str) (ht : ∀ d ∈ t, d ≠ '\n' ∧ d ≠ '\r') (hc : c = '\n' ∨ c = '\r') :
    skipIn true (t ++ c :: s) = skipIn false s := by
  induction t with
  | nil => rcases hc with h | h <;> subst h <;> rfl
  | cons d t ih =>
    have hd := ht d (by simp)
    simp only [List.cons_append, skipIn]
    have : isEol d = false := by simp [isEol, hd.1, hd.2]
    rw [this]
    exact ih (fun x hx => ht x (List.mem_cons_of_mem _ hx))

theorem skip_gap {g : Str} (h : Gap g) (s : Str) : skip (g ++ s) = skip s := by
  induction h with
  | nil => rfl
  | blank c t hc _ ih =>
    unfold skip at *
    simp only [List.cons_append, skipIn]
    rw [if_pos ((isSpace_iff c).2 hc)]; exact ih
  | comment t c t' ht hc _ ih =>
    unfold skip at *
    simp only [List.cons_append, List.append_assoc, skipIn]
    rw [if_neg (by decide), if_pos]
    · rw [skipIn_comment t c _ ht hc]; exact ih
    · have : isEol c = true := by rcases hc with h | h <;> subst h <;> rfl
      simp [this]

theorem skip_solid {u : Str} (h : Solid u) (s : Str) : skip (u ++ s) = u ++ s := by
  obtain ⟨c, u', rfl, hb, hh⟩ := h
  unfold skip
  simp only [List.cons_append, skipIn]
  rw [if_neg (fun h => hb ((isSpace_iff c).1 h)), if_neg (by simp [hh])]

theorem lex_tok {α : Type} (p : P α) {g u : Str} (hg : Gap g) (hu : Solid u) (s : Str) : lex p (g ++ (u ++ s)) = p (u ++ s) := by
  unfold lex; rw [skip_gap hg, skip_solid hu]

/-- no letter, digit or other character of words ends a word -/
theorem Stop.head {r : Str} (h : Stop r) (f : Char → Bool) (hf : ∀ c, Blank c ∨ c = '#' → f c = false) : r.takeWhile f = [] ∧ r.dropWhile f = r := by
  rcases h with rfl | ⟨c, r', rfl, hc⟩
  · exact ⟨rfl, rfl⟩
  · simp [List.takeWhile_cons, List.dropWhile_cons, hf c hc]

theorem takeWhile_stop {r : Str} (h : Stop r) (f : Char → Bool) (hf : ∀ c, Blank c ∨ c = '#' → f c = false) (u : Str)
    (hu : ∀ c ∈ u, f c = true) : (u ++ r).takeWhile f = u ∧ (u ++ r).dropWhile f = r := by
  induction u with
  | nil => simpa using h.head f hf
  | cons c u ih =>
    have := ih (fun x hx => hu x (List.mem_cons_of_mem _ hx))
    simp [List.takeWhile_cons, List.dropWhile_cons, hu c (by simp), this.1, this.2]

/-- as above for a text that does not continue -/
theorem takeWhile_head {r : Str} (f : Char → Bool) (hr : ∀ c, r.head? = some c → f c = false) (u : Str)
    (hu : ∀ c ∈ u, f c = true) : (u ++ r).takeWhile f = u ∧ (u ++ r).dropWhile f = r := by
  induction u with
  | nil =>
    cases r with
    | nil => exact ⟨rfl, rfl⟩
    | cons c r => simp [List.takeWhile_cons, List.dropWhile_cons, hr c rfl]
  | cons c u ih =>
    have := ih (fun x hx => hu x (List.mem_cons_of_mem _ hx))
    simp [List.takeWhile_cons, List.dropWhile_cons, hu c (by simp), this.1, this.2]

theorem blank_cases {p : Char → Prop} (h : ∀ c ∈ ['#', ' ', '\t', '\n', '\x0b', '\x0c', '\r'], p c) : ∀ c, Blank c ∨ c = '#' → p c := by
  intro c hc
  refine h c ?_
  rcases hc with hc | rfl
  · exact List.mem_cons_of_mem _ hc
  · simp

theorem digit_stop : ∀ c, Blank c ∨ c = '#' → c.isDigit = false := blank_cases (by decide)
theorem nc_stop : ∀ c, Blank c ∨ c = '#' → isNC c = false := blank_cases (by decide)
theorem tail_stop : ∀ c, Blank c ∨ c = '#' → isTail c = false := blank_cases (by decide)

/-! ### numbers -/

theorem sign_digits {ds : Str} (hd : ∀ d ∈ ds, d.isDigit = true) (h0 : ds ≠ []) (r : Str) : sign (ds ++ r) = (false, ds ++ r) := by
  cases ds with
  | nil => exact absurd rfl h0
  | cons d ds =>
    have h := hd d (by simp)
    have h1 : d ≠ '-' := by rintro rfl; revert h; decide
    have h2 : d ≠ '+' := by rintro rfl; revert h; decide
    simp only [List.cons_append]
    unfold sign
    split <;> simp_all

/-- a sign is read as its factor -/
theorem sign_text {sg : Str} {k : Int} (h : SignText sg k) (s : Str) (hs : sign s = (false, s)) :
    (sign (sg ++ s)).2 = s ∧ ∀ (v : Int), (if (sign (sg ++ s)).1 then -v else v) = k * v := by
  cases h with
  | none => simp [hs]
  | plus => simp [sign]
  | minus => simp [sign]

theorem intR_text {u : Str} {v : Int} (h : IntText u v) {r : Str} (hr : Stop r) : intR (u ++ r) = some (v, r) := by
  obtain ⟨sg, k, ds, hs, hd, rfl, hv, h1, h2⟩ := h
  have hsd := sign_digits hd.2 hd.1 r
  have hst := sign_text hs (ds ++ r) hsd
  have htw := takeWhile_stop hr Char.isDigit digit_stop ds hd.2
  unfold intR
  simp only [List.append_assoc, hst.1, htw.1, htw.2, if_neg hd.1, hst.2]
  rw [if_pos]
  · simp [natOf, hv]
  · unfold natOf; rw [← hv]; constructor <;> omega

theorem expo_none {r : Str} (hr : Stop r) : expo r = (0, r) := by
  rcases hr with rfl | ⟨c, r', rfl, hc⟩
  · rfl
  · have : (c == 'e' || c == 'E') = false := blank_cases (p := fun c => (c == 'e' || c == 'E') = false) (by decide) c hc
    simp [expo, this]

theorem expo_text {es : Str} {e : Int} (h : ExpText es e) {r : Str} (hr : Stop r) : expo (es ++ r) = (e, r) := by
  cases h with
  | none => simpa using expo_none hr
  | some c sg k ds hc hs hd =>
    have hsd := sign_digits hd.2 hd.1 r
    have hst := sign_text hs (ds ++ r) hsd
    have htw := takeWhile_stop hr Char.isDigit digit_stop ds hd.2
    have hcc : (c == 'e' || c == 'E') = true := by rcases hc with rfl | rfl <;> rfl
    have hde : ds.isEmpty = false := by cases ds <;> simp_all [Digits]
    unfold expo
    simp only [List.cons_append, List.append_assoc, hst.1, htw.1, htw.2, hcc, hde, Bool.not_false, Bool.and_self, if_true, hst.2]
    rfl

/-- what follows the digits of the integer part: an exponent, the end -/
theorem exp_head {es : Str} {e : Int} (h : ExpText es e) {r : Str} (hr : Stop r) (c : Char) (hc : (es ++ r).head? = some c) :
    c.isDigit = false ∧ c ≠ '.' := by
  cases h with
  | none =>
    rcases hr with rfl | ⟨d, r', rfl, hd⟩
    · simp at hc
    · simp at hc; subst hc
      exact blank_cases (p := fun c => c.isDigit = false ∧ c ≠ '.') (by decide) d hd
  | some d sg k ds hd hs hdd =>
    simp at hc; subst hc
    rcases hd with rfl | rfl <;> decide

theorem ofDigitChars_acc (ds : Str) (a : Nat) : Nat.ofDigitChars 10 ds a = a * 10 ^ ds.length + Nat.ofDigitChars 10 ds 0 := by
  induction ds generalizing a with
  | nil => simp [Nat.ofDigitChars]
  | cons d ds ih =>
    have e : ∀ a, Nat.ofDigitChars 10 (d :: ds) a = Nat.ofDigitChars 10 ds (10 * a + (d.toNat - '0'.toNat)) := fun _ => rfl
    rw [e, e, ih, ih (10 * 0 + _)]
    simp only [List.length_cons, pow_succ]
    ring

theorem natOf_append (a b : Str) : natOf (a ++ b) = natOf a * 10 ^ b.length + natOf b := by
  unfold natOf
  have : Nat.ofDigitChars 10 (a ++ b) 0 = Nat.ofDigitChars 10 b (Nat.ofDigitChars 10 a 0) := by
    simp [Nat.ofDigitChars, List.foldl_append]
  rw [this, ofDigitChars_acc]

theorem frac_text {fs fp : Str} (h : FracText fs fp) {r : Str} (hr : ∀ c, r.head? = some c → c.isDigit = false ∧ c ≠ '.') :
    (frac (fs ++ r)).1.getD [] = fp ∧ (frac (fs ++ r)).2 = r ∧ ∀ c, (fs ++ r).head? = some c → c.isDigit = false := by
  cases h with
  | none =>
    cases r with
    | nil => exact ⟨rfl, rfl, fun c hc => by simp at hc⟩
    | cons c r =>
      have hc := hr c rfl
      simp only [List.nil_append]
      have e : frac (c :: r) = (none, c :: r) := by
        unfold frac
        split
        · rename_i heq
          have := (List.cons.inj heq).1
          exact absurd this hc.2
        · rfl
      rw [e]
      exact ⟨rfl, rfl, fun c hc => (hr c hc).1⟩
  | some _ hd =>
    have htw := takeWhile_head Char.isDigit (fun c hc => (hr c hc).1) fp hd
    simp only [List.cons_append, frac, htw.1, htw.2]
    refine ⟨by simp, trivial, fun c hc => ?_⟩
    simp at hc; subst hc; decide

theorem doubleR_text {u : Str} {q : ℚ} (h : NumText u q) {r : Str} (hr : Stop r) : doubleR (u ++ r) = some (q, r) := by
  obtain ⟨sg, k, ip, fs, fp, es, e, hs, hip, hf, h0, he, rfl, hq⟩ := h
  have hx := fun c hc => exp_head he hr c hc
  have hft := frac_text hf hx
  have htw := takeWhile_head Char.isDigit hft.2.2 ip hip
  have hsd : sign (ip ++ (fs ++ (es ++ r))) = (false, ip ++ (fs ++ (es ++ r))) := by
    by_cases hi : ip = []
    · subst hi
      cases hf with
      | none => exact absurd rfl h0
      | some => rfl
    · exact sign_digits hip hi _
  have hst := sign_text hs _ hsd
  unfold doubleR
  simp only [List.append_assoc, hst.1, htw.1, htw.2, hft.1, hft.2.1, expo_text he hr]
  rw [if_neg (by rintro ⟨a, b⟩; exact h0 (by simp [a, b]))]
  congr 2
  have key : ((natOf (ip ++ fp) : ℕ) : ℚ) / 10 ^ fp.length = (natOf ip : ℚ) + (natOf fp : ℚ) / 10 ^ fp.length := by
    rw [natOf_append]; push_cast; field_simp
  rw [key, hq]
  have h1 := hst.2 1
  by_cases hc : (sign (sg ++ (ip ++ (fs ++ (es ++ r))))).1 = true
  · simp only [hc, if_true] at h1 ⊢
    have : k = -1 := by omega
    rw [this]; unfold natOf; push_cast; ring
  · simp only [hc] at h1 ⊢
    have : k = 1 := by simp at h1; omega
    rw [this]; unfold natOf; simp

/-! ### literals -/

theorem strip_text (f : Char → Char) (w u s : Str) (h : u.map f = w.map f) : strip f w (u ++ s) = some s := by
  induction w generalizing u with
  | nil => cases u <;> simp_all [strip]
  | cons c w ih =>
    cases u with
    | nil => simp at h
    | cons d u =>
      simp only [List.map_cons, List.cons.injEq] at h
      simp only [List.cons_append, strip]
      rw [if_pos h.1.symm]
      exact ih u h.2

/-- The word `w` begins with another text than `k`, and neither is part of the other. -/
def differ (f : Char → Char) : Str → Str → Bool
  | c :: k, d :: w => if f c = f d then differ f k w else true
  | _, _ => false

theorem strip_differ (f : Char → Char) (k w u s : Str) (h : u.map f = w.map f) (hd : differ f k w = true) : strip f k (u ++ s) = none := by
  induction k generalizing w u with
  | nil => simp [differ] at hd
  | cons c k ih =>
    cases w with
    | nil => simp [differ] at hd
    | cons e w =>
      cases u with
      | nil => simp at h
      | cons d u =>
        simp only [List.map_cons, List.cons.injEq] at h
        simp only [List.cons_append, strip, differ] at hd ⊢
        rw [h.1]
        by_cases hc : f c = f e
        · rw [if_pos hc] at hd ⊢
          exact ih w u h.2 hd
        · rw [if_neg hc]

end Ecad.XflP
