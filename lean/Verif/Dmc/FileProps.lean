import Verif.Dmc.FileModel
import Verif.Ctm.HeaderProps
import Mathlib.Data.Nat.Digits.Defs
import Mathlib.Algebra.Order.Ring.Rat
/-!
C111: DMC and DOM files are read line by line, and lines that are not records are rejected.
-/
namespace Ecad.Dmc
open Ctm (Bytes isDig isSpace digitsVal stol split fileLines takeWhile_dig splitAux)

/-! ## specification: words of a line and the texts of numbers -/

/-- `l` is the words `ts` with blanks between them -/
inductive Words : Bytes → List Bytes → Prop
  | nil {b : Bytes} (hb : ∀ c ∈ b, isSpace c = true) : Words b []
  | cons {b t r : Bytes} {ts : List Bytes} (hb : ∀ c ∈ b, isSpace c = true) (hne : t ≠ []) (ht : ∀ c ∈ t, isSpace c = false)
      (hr : ∀ c, r.head? = some c → isSpace c = true) (h : Words r ts) : Words (b ++ (t ++ r)) (t :: ts)

/-- a sign and its factor -/
def Signed (s : Bytes) (e : Int) : Prop := (s = [] ∧ e = 1) ∨ (s = [43] ∧ e = 1) ∨ (s = [45] ∧ e = -1)

/-- decimal digits as text -/
def dtext (a : List Nat) : Bytes := a.map (48 + ·)

/-- the number of decimal digits, the first being the highest -/
def dval (a : List Nat) : Nat := Nat.ofDigits 10 a.reverse

/-- the text of a whole number -/
def IsInt (t : Bytes) (i : Int) : Prop :=
  ∃ s e a, Signed s e ∧ a ≠ [] ∧ (∀ d ∈ a, d < 10) ∧ t = s ++ dtext a ∧ i = e * dval a

/-- the text of a decimal number, with or without point -/
def IsDec (t : Bytes) (q : ℚ) : Prop :=
  ∃ s e a b, ∃ p : Bool, Signed s e ∧ (a ≠ [] ∨ b ≠ []) ∧ (∀ d ∈ a, d < 10) ∧ (∀ d ∈ b, d < 10) ∧ (p = false → b = []) ∧
    t = s ++ (dtext a ++ if p then 46 :: dtext b else []) ∧ q = (e : ℚ) * ((dval a : ℚ) + (dval b : ℚ) / 10 ^ b.length)

/-! ## streams -/

/-- what follows a word -/
def Ends (r : Bytes) : Prop := ∀ c, r.head? = some c → isSpace c = true

theorem dropWhile_blank {b : Bytes} (hb : ∀ c ∈ b, isSpace c = true) (t : Bytes) : (b ++ t).dropWhile isSpace = t.dropWhile isSpace := by
  induction b with
  | nil => rfl
  | cons c b ih =>
    rw [List.cons_append, List.dropWhile_cons_of_pos (hb c (by simp)), ih fun x hx => hb x (by simp [hx])]

theorem skip_cons {b t r : Bytes} (hb : ∀ c ∈ b, isSpace c = true) (hne : t ≠ []) (ht : ∀ c ∈ t, isSpace c = false) :
    Strm.skip ⟨b ++ (t ++ r), true⟩ = some (t ++ r) := by
  unfold Strm.skip
  rw [if_pos rfl]
  dsimp only
  rw [dropWhile_blank hb]
  cases t with
  | nil => exact absurd rfl hne
  | cons c t =>
    rw [List.cons_append, List.dropWhile_cons_of_neg (by rw [ht c (by simp)]; simp)]

theorem skip_nil {b : Bytes} (hb : ∀ c ∈ b, isSpace c = true) (g : Bool) : Strm.skip ⟨b, g⟩ = none := by
  unfold Strm.skip
  cases g
  · rfl
  · rw [if_pos rfl]
    dsimp only
    have := dropWhile_blank hb []
    rw [List.append_nil] at this
    rw [this]
    rfl

theorem get_cons {α : Type} {g : Bytes → α × Bytes × Bool} {l t : Bytes} {ts : List Bytes} {v : α} (old : Option α) (h : Words l (t :: ts))
    (hg : ∀ r, Ends r → g (t ++ r) = (v, r, true)) : ∃ r, Strm.get g old ⟨l, true⟩ = (some v, ⟨r, true⟩) ∧ Words r ts := by
  cases h with
  | cons hb hne ht hr h =>
    rename_i b r
    refine ⟨r, ?_, h⟩
    unfold Strm.get
    rw [skip_cons hb hne ht]
    dsimp only
    rw [hg r hr]

theorem get_nil {α : Type} (g : Bytes → α × Bytes × Bool) {l : Bytes} (old : Option α) (h : Words l []) (b : Bool) :
    Strm.get g old ⟨l, b⟩ = (old, ⟨[], false⟩) := by
  cases h with
  | nil hb =>
    unfold Strm.get
    rw [skip_nil hb]

theorem get_bad {α : Type} (g : Bytes → α × Bytes × Bool) (l : Bytes) (old : Option α) : Strm.get g old ⟨l, false⟩ = (old, ⟨[], false⟩) := rfl

theorem word_bad (l : Bytes) (old : Bytes) : Strm.word old ⟨l, false⟩ = (old, ⟨[], false⟩) := rfl

theorem takeWhile_word {t r : Bytes} (ht : ∀ c ∈ t, isSpace c = false) (hr : Ends r) :
    (t ++ r).takeWhile (fun c => !isSpace c) = t ∧ (t ++ r).dropWhile (fun c => !isSpace c) = r := by
  induction t with
  | nil =>
    cases r with
    | nil => simp
    | cons c r => simp [hr c rfl]
  | cons c t ih =>
    have := ih fun x hx => ht x (by simp [hx])
    simp [ht c (by simp), this]

theorem word_cons {l t : Bytes} {ts : List Bytes} (old : Bytes) (h : Words l (t :: ts)) :
    ∃ r, Strm.word old ⟨l, true⟩ = (t, ⟨r, true⟩) ∧ Words r ts := by
  cases h with
  | cons hb hne ht hr h =>
    rename_i b r
    refine ⟨r, ?_, h⟩
    unfold Strm.word
    rw [skip_cons hb hne ht]
    dsimp only
    rw [(takeWhile_word ht hr).1, (takeWhile_word ht hr).2]

theorem word_nil {l : Bytes} (old : Bytes) (h : Words l []) (b : Bool) : Strm.word old ⟨l, b⟩ = (old, ⟨[], false⟩) := by
  cases h with
  | nil hb =>
    unfold Strm.word
    rw [skip_nil hb]

/-! ## numbers -/

theorem dtext_dig {a : List Nat} (ha : ∀ d ∈ a, d < 10) : ∀ c ∈ dtext a, isDig c = true := by
  intro c hc
  obtain ⟨d, hd, rfl⟩ := List.mem_map.1 hc
  exact Ctm.isDig_add d (ha d hd)

theorem digitsVal_dtext (a : List Nat) : digitsVal (dtext a) = dval a := by
  induction a using List.reverseRecOn with
  | nil => rfl
  | append_singleton a c ih =>
    have e : dtext (a ++ [c]) = dtext a ++ [48 + c] := by simp [dtext]
    rw [e, Ctm.digitsVal_append, ih]
    unfold dval
    rw [List.reverse_append, List.reverse_singleton, List.singleton_append, Nat.ofDigits_cons]
    simp
    omega

theorem ends_dig {r : Bytes} (h : Ends r) : ∀ c, r.head? = some c → isDig c = false := by
  intro c hc
  have := h c hc
  simp only [isSpace, Bool.or_eq_true, Bool.and_eq_true, decide_eq_true_eq, beq_iff_eq] at this
  simp only [isDig, Bool.and_eq_false_iff, decide_eq_false_iff_not]
  omega

theorem sign_text {s : Bytes} {e : Int} (hs : Signed s e) {u : Bytes} (hu : ∀ c, u.head? = some c → c ≠ 45 ∧ c ≠ 43) :
    sign (s ++ u) = (decide (e = -1), u) := by
  rcases hs with ⟨rfl, rfl⟩ | ⟨rfl, rfl⟩ | ⟨rfl, rfl⟩
  · rw [List.nil_append]
    cases u with
    | nil => rfl
    | cons c u =>
      have := hu c rfl
      unfold sign
      split
      · next h => rw [List.cons.injEq] at h; omega
      · next h => rw [List.cons.injEq] at h; omega
      · rfl
  · rfl
  · rfl

theorem dtext_head {a : List Nat} (ha : ∀ d ∈ a, d < 10) (hne : a ≠ []) (u : Bytes) : ∀ c, (dtext a ++ u).head? = some c → 48 ≤ c ∧ c ≤ 57 := by
  intro c hc
  cases a with
  | nil => exact absurd rfl hne
  | cons d a =>
    simp only [dtext, List.map_cons, List.cons_append, List.head?_cons, Option.some.injEq] at hc
    have := ha d (by simp)
    omega

theorem dtext_ne {a : List Nat} (h : a ≠ []) : dtext a ≠ [] := by
  unfold dtext
  simpa using h

theorem getInt_text {t : Bytes} {i : Int} (h : IsInt t i) (h1 : -2 ^ 31 ≤ i) (h2 : i < 2 ^ 31) (r : Bytes) (hr : Ends r) :
    getInt (t ++ r) = (i, r, true) := by
  obtain ⟨s, e, a, hs, hne, ha, rfl, rfl⟩ := h
  have hd := takeWhile_dig (dtext_dig ha) (ends_dig hr)
  unfold getInt
  rw [List.append_assoc, sign_text hs (fun c hc => by have := dtext_head ha hne r c hc; omega)]
  dsimp only
  rw [hd.1, hd.2, if_neg (dtext_ne hne), digitsVal_dtext]
  have hv : (if decide (e = -1) = true then -(dval a : Int) else (dval a : Int)) = e * dval a := by
    rcases hs with ⟨_, rfl⟩ | ⟨_, rfl⟩ | ⟨_, rfl⟩ <;> simp
  rw [hv, if_neg (by omega), if_neg (by omega)]

theorem getSize_text {a : List Nat} (hne : a ≠ []) (ha : ∀ d ∈ a, d < 10) (h : dval a < 2 ^ 64) (r : Bytes) (hr : Ends r) :
    getSize (dtext a ++ r) = (dval a, r, true) := by
  have hd := takeWhile_dig (dtext_dig ha) (ends_dig hr)
  unfold getSize
  have := sign_text (s := []) (e := 1) (.inl ⟨rfl, rfl⟩) (u := dtext a ++ r) (fun c hc => by have := dtext_head ha hne r c hc; omega)
  rw [List.nil_append] at this
  rw [this]
  dsimp only
  rw [hd.1, hd.2, if_neg (dtext_ne hne), digitsVal_dtext, if_neg (by omega)]
  simp

theorem frac_none {r : Bytes} (h46 : ∀ c, r.head? = some c → c ≠ 46) : frac r = ([], r) := by
  cases r with
  | nil => rfl
  | cons c r =>
    have := h46 c rfl
    unfold frac
    split
    · next h => rw [List.cons.injEq] at h; omega
    · rfl

theorem getReal_text {t : Bytes} {q : ℚ} (h : IsDec t q) (r : Bytes) (hr : Ends r) : getReal (t ++ r) = (q, r, true) := by
  obtain ⟨s, e, a, b, p, hs, hne, ha, hb, hp, rfl, rfl⟩ := h
  have hrd := ends_dig hr
  have h46 : ∀ c, r.head? = some c → c ≠ 46 := by
    intro c hc
    have := hr c hc
    simp only [isSpace, Bool.or_eq_true, Bool.and_eq_true, decide_eq_true_eq, beq_iff_eq] at this
    omega
  have hsgn : ∀ x : ℚ, (if decide (e = -1) = true then -x else x) = (e : ℚ) * x := by
    intro x
    rcases hs with ⟨_, rfl⟩ | ⟨_, rfl⟩ | ⟨_, rfl⟩ <;> simp
  unfold getReal
  cases p with
  | false =>
    have hb0 := hp rfl
    subst hb0
    have hne : a ≠ [] := hne.resolve_right (by simp)
    have hd := takeWhile_dig (dtext_dig ha) hrd
    have ht : (s ++ (dtext a ++ if false = true then 46 :: dtext [] else [])) ++ r = s ++ (dtext a ++ r) := by simp
    rw [ht, sign_text hs (fun c hc => by have := dtext_head ha hne r c hc; omega)]
    dsimp only
    rw [hd.1, hd.2]
    rw [frac_none h46]
    dsimp only
    rw [if_neg (fun h => dtext_ne hne h.1), hsgn, digitsVal_dtext]
    simp [dval, digitsVal]
  | true =>
    have hd := takeWhile_dig (b := 46 :: (dtext b ++ r)) (dtext_dig ha) (by intro c hc; simp only [List.head?_cons, Option.some.injEq] at hc; subst hc; rfl)
    have hd2 := takeWhile_dig (dtext_dig hb) hrd
    have ht : (s ++ (dtext a ++ if true = true then 46 :: dtext b else [])) ++ r = s ++ (dtext a ++ 46 :: (dtext b ++ r)) := by simp
    rw [ht, sign_text hs (fun c hc => by
      by_cases h : a = []
      · subst h
        simp only [dtext, List.map_nil, List.nil_append, List.head?_cons, Option.some.injEq] at hc
        omega
      · have := dtext_head ha h (46 :: (dtext b ++ r)) c hc; omega)]
    dsimp only
    rw [hd.1, hd.2, show frac (46 :: (dtext b ++ r)) = ((dtext b ++ r).takeWhile isDig, (dtext b ++ r).dropWhile isDig) from rfl]
    dsimp only
    rw [hd2.1, hd2.2, if_neg, hsgn, digitsVal_dtext, digitsVal_dtext]
    · simp [dtext]
    · rintro ⟨h1, h2⟩
      rcases hne with h | h
      · exact dtext_ne h h1
      · exact dtext_ne h h2

theorem stoi_text {t : Bytes} {i : Int} (h : IsInt t i) (h1 : -2 ^ 31 ≤ i) (h2 : i < 2 ^ 31) : stoi t = .ok i := by
  obtain ⟨s, e, a, hs, hne, ha, rfl, rfl⟩ := h
  have hd := (takeWhile_dig (b := []) (dtext_dig ha) (by simp)).1
  rw [List.append_nil] at hd
  have hsp : ∀ (u : Bytes) (c : Nat), u.head? = some c → 33 ≤ c → u.dropWhile isSpace = u := by
    intro u c hu hc
    cases u with
    | nil => rfl
    | cons x u =>
      simp only [List.head?_cons, Option.some.injEq] at hu
      subst hu
      rw [List.dropWhile_cons_of_neg (by rw [Ctm.isSpace_of hc]; simp)]
  have hst : stol (s ++ dtext a) = some (e * dval a) := by
    unfold stol
    rcases hs with ⟨rfl, rfl⟩ | ⟨rfl, rfl⟩ | ⟨rfl, rfl⟩
    · rw [List.nil_append]
      have hh := dtext_head ha hne []
      rw [List.append_nil] at hh
      cases hu : dtext a with
      | nil => exact absurd hu (dtext_ne hne)
      | cons c u =>
        have hc := hh c (by rw [hu]; rfl)
        rw [← hu, hsp _ c (by rw [hu]; rfl) (by omega)]
        simp only
        split
        · next h => rw [hu, List.cons.injEq] at h; omega
        · next h => rw [hu, List.cons.injEq] at h; omega
        · rw [hd, if_neg (dtext_ne hne), digitsVal_dtext, one_mul]
    · have : ([43] ++ dtext a).dropWhile isSpace = 43 :: dtext a := rfl
      rw [this]
      simp only
      rw [hd, if_neg (dtext_ne hne), digitsVal_dtext, one_mul]
    · have : ([45] ++ dtext a).dropWhile isSpace = 45 :: dtext a := rfl
      rw [this]
      simp only
      rw [hd, if_neg (dtext_ne hne), digitsVal_dtext, Option.map_some]
      simp
  unfold stoi
  rw [hst]
  dsimp only
  rw [if_pos ⟨h1, h2⟩]

/-! ## truncation -/

/-- `trunc` cuts towards zero -/
theorem trunc_spec (q : ℚ) : (0 ≤ q → (trunc q : ℚ) ≤ q ∧ q < trunc q + 1) ∧ (q ≤ 0 → q ≤ trunc q ∧ (trunc q : ℚ) - 1 < q) := by
  have hd : (0 : ℚ) < q.den := by exact_mod_cast q.den_pos
  have hq : q = (q.num : ℚ) / q.den := (Rat.num_div_den q).symm
  have hm := Int.tdiv_mul_add_tmod q.num q.den
  have hmq : (trunc q : ℚ) * q.den + (q.num.tmod q.den : ℚ) = q.num := by unfold trunc; exact_mod_cast hm
  have hz : (q.den : Int) ≠ 0 := by exact_mod_cast q.den_nz
  constructor
  · intro h
    have hn : 0 ≤ q.num := Rat.num_nonneg.2 h
    have a1 : (0 : ℚ) ≤ (q.num.tmod q.den : ℚ) := by exact_mod_cast Int.tmod_nonneg _ hn
    have a2 : (q.num.tmod q.den : ℚ) < q.den := by
      have := Int.tmod_lt_of_pos q.num (b := q.den) (by exact_mod_cast q.den_pos)
      exact_mod_cast this
    constructor
    · conv_rhs => rw [hq]
      rw [le_div_iff₀ hd]; linarith
    · conv_lhs => rw [hq]
      rw [div_lt_iff₀ hd]; linarith
  · intro h
    have hn : q.num ≤ 0 := Rat.num_nonpos.2 h
    have e : q.num.tmod q.den = -((-q.num).tmod q.den) := by rw [Int.neg_tmod]; simp
    have a1 : (q.num.tmod q.den : ℚ) ≤ 0 := by
      rw [e]
      have := Int.tmod_nonneg (q.den : Int) (a := -q.num) (by omega)
      have : (0 : ℚ) ≤ ((-q.num).tmod q.den : ℚ) := by exact_mod_cast this
      push_cast
      linarith
    have a2 : -(q.den : ℚ) < (q.num.tmod q.den : ℚ) := by
      rw [e]
      have := Int.tmod_lt_of_pos (-q.num) (b := q.den) (by exact_mod_cast q.den_pos)
      have : ((-q.num).tmod q.den : ℚ) < q.den := by exact_mod_cast this
      push_cast
      linarith
    constructor
    · conv_lhs => rw [hq]
      rw [div_le_iff₀ hd]; linarith
    · conv_rhs => rw [hq]
      rw [lt_div_iff₀ hd]; linarith

/-- `z` is `q` cut towards zero, and a number of 64 bits -/
def IsCut (q : ℚ) (z : Int) : Prop :=
  (0 ≤ q → (z : ℚ) ≤ q ∧ q < z + 1) ∧ (q ≤ 0 → q ≤ z ∧ (z : ℚ) - 1 < q) ∧ -2 ^ 63 ≤ z ∧ z < 2 ^ 63

theorem conv_cut {q : ℚ} {z : Int} (h : IsCut q z) : conv q = .ok z := by
  have ht := trunc_spec q
  have e : trunc q = z := by
    rcases le_total 0 q with h0 | h0
    · have a := h.1 h0
      have b := ht.1 h0
      have c1 : (trunc q : ℚ) < z + 1 := by linarith
      have c2 : (z : ℚ) < trunc q + 1 := by linarith
      have c1 : trunc q < z + 1 := by exact_mod_cast c1
      have c2 : z < trunc q + 1 := by exact_mod_cast c2
      omega
    · have a := h.2.1 h0
      have b := ht.2 h0
      have c1 : (trunc q : ℚ) - 1 < z := by linarith
      have c2 : (z : ℚ) - 1 < trunc q := by linarith
      have c1 : trunc q - 1 < z := by exact_mod_cast c1
      have c2 : z - 1 < trunc q := by exact_mod_cast c2
      omega
  unfold conv
  rw [e, if_pos h.2.2]

/-! ## lines -/

/-- the words of a line of a DMC file -/
structure Line where
  points : Bytes
  dark : Bytes
  layer : Bytes
  llx : Bytes
  urx : Bytes
  lly : Bytes
  ury : Bytes
  net : Bytes
  netName : Bytes
  sig : Bytes
  lyrName : Bytes

def Line.words (w : Line) : List Bytes := [w.points, w.dark, w.layer, w.llx, w.urx, w.lly, w.ury, w.net, w.netName, w.sig, w.lyrName]

/-- a number of 32 bits -/
def Int32Ok (i : Int) : Prop := -2 ^ 31 ≤ i ∧ i < 2 ^ 31

/-- the signal layers: one for a shape; two, or `V` alone for all, for a via -/
inductive SigText : Bytes → Bool → Int → Option Int → Prop
  | layer {t : Bytes} {i : Int} (h : IsInt t i) (hi : Int32Ok i) : SigText t false i none
  | via {a b : List Nat} (ha : a ≠ []) (hb : b ≠ []) (hda : ∀ d ∈ a, d < 10) (hdb : ∀ d ∈ b, d < 10) (h1 : dval a < 2 ^ 31) (h2 : dval b < 2 ^ 31) :
      SigText (86 :: (dtext a ++ 45 :: dtext b)) true (dval a) (some (dval b))
  | all : SigText [86] true (-1) (some (-1))

/-- the first eight words are numbers; the record and the four corners say which -/
structure Line.Nums (w : Line) (points : Nat) (dark layer net : Int) (llx urx lly ury : ℚ) : Prop where
  points : ∃ a, a ≠ [] ∧ (∀ d ∈ a, d < 10) ∧ w.points = dtext a ∧ dval a = points ∧ points < 2 ^ 64
  dark : IsInt w.dark dark ∧ Int32Ok dark
  layer : IsInt w.layer layer ∧ Int32Ok layer
  llx : IsDec w.llx llx
  urx : IsDec w.urx urx
  lly : IsDec w.lly lly
  ury : IsDec w.ury ury
  net : IsInt w.net net ∧ Int32Ok net

/-- a line says a record -/
def Line.Says (scale : ℚ) (w : Line) (r : FRec) : Prop :=
  ∃ points dark layer net llx urx lly ury s1, w.Nums points dark layer net llx urx lly ury ∧ SigText w.sig r.isVia s1 r.sigLyr2 ∧
    r.sigLyr1 = some s1 ∧ (r.isHole = true ↔ dark = 0) ∧ r.netId = some net ∧ r.layerId = some layer ∧ r.points = some points ∧
    IsCut (llx * scale) r.bbox.1 ∧ IsCut (lly * scale) r.bbox.2.1 ∧ IsCut (urx * scale) r.bbox.2.2.1 ∧ IsCut (ury * scale) r.bbox.2.2.2 ∧
    r.netName = w.netName ∧ r.lyrName = w.lyrName

theorem split_dash {a b : List Nat} (ha : a ≠ []) (hb : b ≠ []) (hda : ∀ d ∈ a, d < 10) (hdb : ∀ d ∈ b, d < 10) :
    split (fun c => c == 45) (dtext a ++ 45 :: dtext b) = [dtext a, dtext b] := by
  have hn : ∀ {a : List Nat}, (∀ d ∈ a, d < 10) → ∀ c ∈ dtext a, (c == 45) = false := by
    intro a ha c hc
    have := dtext_dig ha c hc
    simp only [isDig, Bool.and_eq_true, decide_eq_true_eq] at this
    simp
    omega
  unfold split
  rw [Ctm.splitAux_tok (sep := fun c => c == 45) _ (hn hda), List.nil_append, splitAux, if_pos (by rfl), if_neg (dtext_ne ha)]
  congr 1
  have := Ctm.splitAux_tok (sep := fun c => c == 45) _ (hn hdb) [] []
  rw [List.append_nil] at this
  rw [this, List.nil_append, splitAux, if_neg (dtext_ne hb)]

theorem isInt_dtext {a : List Nat} (ha : a ≠ []) (hda : ∀ d ∈ a, d < 10) : IsInt (dtext a) (dval a) :=
  ⟨[], 1, a, .inl ⟨rfl, rfl⟩, ha, hda, rfl, by simp⟩

theorem sig_head {t : Bytes} {v : Bool} {s1 : Int} {s2 : Option Int} (h : SigText t v s1 s2) : t ≠ [] ∧ (t.head? == some 86) = v := by
  cases h with
  | layer h hi =>
    obtain ⟨s, e, a, hs, hne, ha, rfl, rfl⟩ := h
    have hc := dtext_head ha hne []
    rw [List.append_nil] at hc
    rcases hs with ⟨rfl, rfl⟩ | ⟨rfl, rfl⟩ | ⟨rfl, rfl⟩
    · rw [List.nil_append]
      refine ⟨dtext_ne hne, ?_⟩
      cases hu : (dtext a).head? with
      | none => rfl
      | some c =>
        have := hc c hu
        simp
        omega
    · exact ⟨by simp, rfl⟩
    · exact ⟨by simp, rfl⟩
  | via ha hb hda hdb h1 h2 => exact ⟨by simp, rfl⟩
  | all => exact ⟨by simp, rfl⟩

/-- signal layers are read -/
theorem sig_read {t : Bytes} {v : Bool} {s1 : Int} {s2 : Option Int} (h : SigText t v s1 s2) :
    (if v = true then (getSigLayers t).bind fun x => .ok (x.map fun p => (some p.1, some p.2))
      else (stoi t).bind fun i => .ok (some (some i, none))) = .ok (some (some s1, s2)) := by
  cases h with
  | layer h hi => rw [if_neg (by simp), stoi_text h hi.1 hi.2]; rfl
  | via ha hb hda hdb h1 h2 =>
    rename_i a b
    rw [if_pos rfl]
    have : getSigLayers (86 :: (dtext a ++ 45 :: dtext b)) = .ok (some ((dval a : Int), (dval b : Int))) := by
      unfold getSigLayers
      rw [if_neg (by simp), if_neg (by simp), List.drop_succ_cons, List.drop_zero, split_dash ha hb hda hdb]
      dsimp only
      rw [stoi_text (isInt_dtext ha hda) (by omega) (by omega), stoi_text (isInt_dtext hb hdb) (by omega) (by omega)]
      rfl
    rw [this]
    rfl
  | all => rfl

/-- **C111** for one line: a line that says a record is read as this record, whatever follows the layer name. -/
theorem c111_line {scale : ℚ} {l : Bytes} {w : Line} {extra : List Bytes} {r : FRec} (hl : Words l (w.words ++ extra)) (hs : w.Says scale r) :
    parseDmcLine scale l = .ok (some r) := by
  obtain ⟨points, dark, layer, net, llx, urx, lly, ury, s1, hn, hsig, e1, e2, e3, e4, e5, e6, e7, e8, e9, e10, e11⟩ := hs
  obtain ⟨a, hne, ha, hp, hv, hp2⟩ := hn.points
  obtain ⟨r1, h1, hl⟩ := get_cons (g := getSize) (v := points) none hl (by rw [hp]; intro r hr; rw [getSize_text hne ha (by omega) r hr, hv])
  obtain ⟨r2, h2, hl⟩ := get_cons none hl (getInt_text hn.dark.1 hn.dark.2.1 hn.dark.2.2)
  obtain ⟨r3, h3, hl⟩ := get_cons none hl (getInt_text hn.layer.1 hn.layer.2.1 hn.layer.2.2)
  obtain ⟨r4, h4, hl⟩ := get_cons none hl (getReal_text hn.llx)
  obtain ⟨r5, h5, hl⟩ := get_cons none hl (getReal_text hn.urx)
  obtain ⟨r6, h6, hl⟩ := get_cons none hl (getReal_text hn.lly)
  obtain ⟨r7, h7, hl⟩ := get_cons none hl (getReal_text hn.ury)
  obtain ⟨r8, h8, hl⟩ := get_cons none hl (getInt_text hn.net.1 hn.net.2.1 hn.net.2.2)
  obtain ⟨r9, h9, hl⟩ := word_cons [] hl
  obtain ⟨r10, h10, hl⟩ := word_cons [] hl
  obtain ⟨r11, h11, hl⟩ := word_cons [] hl
  have hh := sig_head hsig
  unfold parseDmcLine
  simp only [h1, h2, h3, h4, h5, h6, h7, h8, h9, h10, h11]
  rw [if_neg hh.1, hh.2, sig_read hsig]
  simp only [use, Res.bind_ok, conv_cut e6, conv_cut e7, conv_cut e8, conv_cut e9]
  have hd : (dark == 0) = r.isHole := by
    rw [Bool.eq_iff_iff, e2]; simp
  rw [hd, ← e1, ← e3, ← e4, ← e5, ← e10, ← e11]

/-- a word at which no number can be read -/
def NoNum (t : Bytes) : Prop := ∃ c u, t = c :: u ∧ isDig c = false ∧ c ≠ 43 ∧ c ≠ 45 ∧ c ≠ 46

theorem sign_noNum {c : Nat} (u : Bytes) (h1 : c ≠ 43) (h2 : c ≠ 45) : sign (c :: u) = (false, c :: u) := by
  have := sign_text (s := []) (e := 1) (.inl ⟨rfl, rfl⟩) (u := c :: u) (fun x hx => by simp only [List.head?_cons, Option.some.injEq] at hx; subst hx; exact ⟨h2, h1⟩)
  simpa using this

theorem get_fail {α : Type} {g : Bytes → α × Bytes × Bool} (hg : ∀ c u, isDig c = false → c ≠ 43 → c ≠ 45 → c ≠ 46 → (g (c :: u)).2.2 = false)
    {l t : Bytes} {ts : List Bytes} (old : Option α) (h : Words l (t :: ts)) (ht : NoNum t) : ∃ v r, Strm.get g old ⟨l, true⟩ = (v, ⟨r, false⟩) := by
  cases h with
  | cons hb hne hts hr h =>
    rename_i b r
    obtain ⟨c, u, rfl, hc1, hc2, hc3, hc4⟩ := ht
    unfold Strm.get
    rw [skip_cons hb hne hts]
    dsimp only
    refine ⟨some (g (c :: u ++ r)).1, (g (c :: u ++ r)).2.1, ?_⟩
    rw [List.cons_append, hg c (u ++ r) hc1 hc2 hc3 hc4]

theorem getInt_fail (c : Nat) (u : Bytes) (h : isDig c = false) (h1 : c ≠ 43) (h2 : c ≠ 45) (_ : c ≠ 46) : (getInt (c :: u)).2.2 = false := by
  unfold getInt
  rw [sign_noNum u h1 h2]
  dsimp only
  rw [if_pos (by rw [List.takeWhile_cons_of_neg (by rw [h]; simp)])]

theorem getSize_fail (c : Nat) (u : Bytes) (h : isDig c = false) (h1 : c ≠ 43) (h2 : c ≠ 45) (_ : c ≠ 46) : (getSize (c :: u)).2.2 = false := by
  unfold getSize
  rw [sign_noNum u h1 h2]
  dsimp only
  rw [if_pos (by rw [List.takeWhile_cons_of_neg (by rw [h]; simp)])]

theorem getReal_fail (c : Nat) (u : Bytes) (h : isDig c = false) (h1 : c ≠ 43) (h2 : c ≠ 45) (h3 : c ≠ 46) : (getReal (c :: u)).2.2 = false := by
  unfold getReal
  rw [sign_noNum u h1 h2]
  dsimp only
  rw [List.dropWhile_cons_of_neg (by rw [h]; simp), frac_none (by intro x hx; simp only [List.head?_cons, Option.some.injEq] at hx; omega),
    if_pos ⟨by rw [List.takeWhile_cons_of_neg (by rw [h]; simp)], rfl⟩]

/-- **C111**: a line that ends before the signal layer, blank lines among them, is rejected. -/
theorem c111_short (scale : ℚ) {l : Bytes} {w : Line} {k : Nat} (hk : k < 10) (hl : Words l (w.words.take k))
    {points : Nat} {dark layer net : Int} {llx urx lly ury : ℚ} (hn : w.Nums points dark layer net llx urx lly ury) : parseDmcLine scale l = .ok none := by
  obtain ⟨a, hne, ha, hp, hv, hp2⟩ := hn.points
  have g1 := fun (l : Bytes) (ts : List Bytes) (hl : Words l (w.points :: ts)) =>
    get_cons (g := getSize) (v := points) none hl (by rw [hp]; intro r hr; rw [getSize_text hne ha (by omega) r hr, hv])
  have g2 := fun (l : Bytes) (ts : List Bytes) (hl : Words l (w.dark :: ts)) => get_cons none hl (getInt_text hn.dark.1 hn.dark.2.1 hn.dark.2.2)
  have g3 := fun (l : Bytes) (ts : List Bytes) (hl : Words l (w.layer :: ts)) => get_cons none hl (getInt_text hn.layer.1 hn.layer.2.1 hn.layer.2.2)
  have g4 := fun (l : Bytes) (ts : List Bytes) (hl : Words l (w.llx :: ts)) => get_cons none hl (getReal_text hn.llx)
  have g5 := fun (l : Bytes) (ts : List Bytes) (hl : Words l (w.urx :: ts)) => get_cons none hl (getReal_text hn.urx)
  have g6 := fun (l : Bytes) (ts : List Bytes) (hl : Words l (w.lly :: ts)) => get_cons none hl (getReal_text hn.lly)
  have g7 := fun (l : Bytes) (ts : List Bytes) (hl : Words l (w.ury :: ts)) => get_cons none hl (getReal_text hn.ury)
  have g8 := fun (l : Bytes) (ts : List Bytes) (hl : Words l (w.net :: ts)) => get_cons none hl (getInt_text hn.net.1 hn.net.2.1 hn.net.2.2)
  unfold parseDmcLine
  match k, hk with
  | 0, _ => simp [get_nil _ _ hl, get_bad, word_bad]
  | 1, _ =>
    obtain ⟨r1, h1, hl⟩ := g1 _ _ hl
    simp [h1, get_nil _ _ hl, get_bad, word_bad]
  | 2, _ =>
    obtain ⟨r1, h1, hl⟩ := g1 _ _ hl
    obtain ⟨r2, h2, hl⟩ := g2 _ _ hl
    simp [h1, h2, get_nil _ _ hl, get_bad, word_bad]
  | 3, _ =>
    obtain ⟨r1, h1, hl⟩ := g1 _ _ hl
    obtain ⟨r2, h2, hl⟩ := g2 _ _ hl
    obtain ⟨r3, h3, hl⟩ := g3 _ _ hl
    simp [h1, h2, h3, get_nil _ _ hl, get_bad, word_bad]
  | 4, _ =>
    obtain ⟨r1, h1, hl⟩ := g1 _ _ hl
    obtain ⟨r2, h2, hl⟩ := g2 _ _ hl
    obtain ⟨r3, h3, hl⟩ := g3 _ _ hl
    obtain ⟨r4, h4, hl⟩ := g4 _ _ hl
    simp [h1, h2, h3, h4, get_nil _ _ hl, get_bad, word_bad]
  | 5, _ =>
    obtain ⟨r1, h1, hl⟩ := g1 _ _ hl
    obtain ⟨r2, h2, hl⟩ := g2 _ _ hl
    obtain ⟨r3, h3, hl⟩ := g3 _ _ hl
    obtain ⟨r4, h4, hl⟩ := g4 _ _ hl
    obtain ⟨r5, h5, hl⟩ := g5 _ _ hl
    simp [h1, h2, h3, h4, h5, get_nil _ _ hl, get_bad, word_bad]
  | 6, _ =>
    obtain ⟨r1, h1, hl⟩ := g1 _ _ hl
    obtain ⟨r2, h2, hl⟩ := g2 _ _ hl
    obtain ⟨r3, h3, hl⟩ := g3 _ _ hl
    obtain ⟨r4, h4, hl⟩ := g4 _ _ hl
    obtain ⟨r5, h5, hl⟩ := g5 _ _ hl
    obtain ⟨r6, h6, hl⟩ := g6 _ _ hl
    simp [h1, h2, h3, h4, h5, h6, get_nil _ _ hl, get_bad, word_bad]
  | 7, _ =>
    obtain ⟨r1, h1, hl⟩ := g1 _ _ hl
    obtain ⟨r2, h2, hl⟩ := g2 _ _ hl
    obtain ⟨r3, h3, hl⟩ := g3 _ _ hl
    obtain ⟨r4, h4, hl⟩ := g4 _ _ hl
    obtain ⟨r5, h5, hl⟩ := g5 _ _ hl
    obtain ⟨r6, h6, hl⟩ := g6 _ _ hl
    obtain ⟨r7, h7, hl⟩ := g7 _ _ hl
    simp [h1, h2, h3, h4, h5, h6, h7, get_nil _ _ hl, get_bad, word_bad]
  | 8, _ =>
    obtain ⟨r1, h1, hl⟩ := g1 _ _ hl
    obtain ⟨r2, h2, hl⟩ := g2 _ _ hl
    obtain ⟨r3, h3, hl⟩ := g3 _ _ hl
    obtain ⟨r4, h4, hl⟩ := g4 _ _ hl
    obtain ⟨r5, h5, hl⟩ := g5 _ _ hl
    obtain ⟨r6, h6, hl⟩ := g6 _ _ hl
    obtain ⟨r7, h7, hl⟩ := g7 _ _ hl
    obtain ⟨r8, h8, hl⟩ := g8 _ _ hl
    simp [h1, h2, h3, h4, h5, h6, h7, h8, word_nil _ hl, word_bad]
  | 9, _ =>
    obtain ⟨r1, h1, hl⟩ := g1 _ _ hl
    obtain ⟨r2, h2, hl⟩ := g2 _ _ hl
    obtain ⟨r3, h3, hl⟩ := g3 _ _ hl
    obtain ⟨r4, h4, hl⟩ := g4 _ _ hl
    obtain ⟨r5, h5, hl⟩ := g5 _ _ hl
    obtain ⟨r6, h6, hl⟩ := g6 _ _ hl
    obtain ⟨r7, h7, hl⟩ := g7 _ _ hl
    obtain ⟨r8, h8, hl⟩ := g8 _ _ hl
    obtain ⟨r9, h9, hl⟩ := word_cons [] hl
    simp [h1, h2, h3, h4, h5, h6, h7, h8, h9, word_nil _ hl]

/-- **C111**: a line with a word at which no number can be read, where one is expected, is rejected. -/
theorem c111_number (scale : ℚ) {l t : Bytes} {w : Line} {k : Nat} (hk : k < 8) {rest : List Bytes} (hl : Words l (w.words.take k ++ t :: rest)) (ht : NoNum t)
    {points : Nat} {dark layer net : Int} {llx urx lly ury : ℚ} (hn : w.Nums points dark layer net llx urx lly ury) : parseDmcLine scale l = .ok none := by
  obtain ⟨a, hne, ha, hp, hv, hp2⟩ := hn.points
  have g1 := fun (l : Bytes) (ts : List Bytes) (hl : Words l (w.points :: ts)) =>
    get_cons (g := getSize) (v := points) none hl (by rw [hp]; intro r hr; rw [getSize_text hne ha (by omega) r hr, hv])
  have g2 := fun (l : Bytes) (ts : List Bytes) (hl : Words l (w.dark :: ts)) => get_cons none hl (getInt_text hn.dark.1 hn.dark.2.1 hn.dark.2.2)
  have g3 := fun (l : Bytes) (ts : List Bytes) (hl : Words l (w.layer :: ts)) => get_cons none hl (getInt_text hn.layer.1 hn.layer.2.1 hn.layer.2.2)
  have g4 := fun (l : Bytes) (ts : List Bytes) (hl : Words l (w.llx :: ts)) => get_cons none hl (getReal_text hn.llx)
  have g5 := fun (l : Bytes) (ts : List Bytes) (hl : Words l (w.urx :: ts)) => get_cons none hl (getReal_text hn.urx)
  have g6 := fun (l : Bytes) (ts : List Bytes) (hl : Words l (w.lly :: ts)) => get_cons none hl (getReal_text hn.lly)
  have g7 := fun (l : Bytes) (ts : List Bytes) (hl : Words l (w.ury :: ts)) => get_cons none hl (getReal_text hn.ury)
  unfold parseDmcLine
  match k, hk with
  | 0, _ =>
    obtain ⟨v, r, h⟩ := get_fail getSize_fail none hl ht
    simp [h, get_bad, word_bad]
  | 1, _ =>
    obtain ⟨r1, h1, hl⟩ := g1 _ _ hl
    obtain ⟨v, r, h⟩ := get_fail getInt_fail none hl ht
    simp [h1, h, get_bad, word_bad]
  | 2, _ =>
    obtain ⟨r1, h1, hl⟩ := g1 _ _ hl
    obtain ⟨r2, h2, hl⟩ := g2 _ _ hl
    obtain ⟨v, r, h⟩ := get_fail getInt_fail none hl ht
    simp [h1, h2, h, get_bad, word_bad]
  | 3, _ =>
    obtain ⟨r1, h1, hl⟩ := g1 _ _ hl
    obtain ⟨r2, h2, hl⟩ := g2 _ _ hl
    obtain ⟨r3, h3, hl⟩ := g3 _ _ hl
    obtain ⟨v, r, h⟩ := get_fail getReal_fail none hl ht
    simp [h1, h2, h3, h, get_bad, word_bad]
  | 4, _ =>
    obtain ⟨r1, h1, hl⟩ := g1 _ _ hl
    obtain ⟨r2, h2, hl⟩ := g2 _ _ hl
    obtain ⟨r3, h3, hl⟩ := g3 _ _ hl
    obtain ⟨r4, h4, hl⟩ := g4 _ _ hl
    obtain ⟨v, r, h⟩ := get_fail getReal_fail none hl ht
    simp [h1, h2, h3, h4, h, get_bad, word_bad]
  | 5, _ =>
    obtain ⟨r1, h1, hl⟩ := g1 _ _ hl
    obtain ⟨r2, h2, hl⟩ := g2 _ _ hl
    obtain ⟨r3, h3, hl⟩ := g3 _ _ hl
    obtain ⟨r4, h4, hl⟩ := g4 _ _ hl
    obtain ⟨r5, h5, hl⟩ := g5 _ _ hl
    obtain ⟨v, r, h⟩ := get_fail getReal_fail none hl ht
    simp [h1, h2, h3, h4, h5, h, get_bad, word_bad]
  | 6, _ =>
    obtain ⟨r1, h1, hl⟩ := g1 _ _ hl
    obtain ⟨r2, h2, hl⟩ := g2 _ _ hl
    obtain ⟨r3, h3, hl⟩ := g3 _ _ hl
    obtain ⟨r4, h4, hl⟩ := g4 _ _ hl
    obtain ⟨r5, h5, hl⟩ := g5 _ _ hl
    obtain ⟨r6, h6, hl⟩ := g6 _ _ hl
    obtain ⟨v, r, h⟩ := get_fail getReal_fail none hl ht
    simp [h1, h2, h3, h4, h5, h6, h, get_bad, word_bad]
  | 7, _ =>
    obtain ⟨r1, h1, hl⟩ := g1 _ _ hl
    obtain ⟨r2, h2, hl⟩ := g2 _ _ hl
    obtain ⟨r3, h3, hl⟩ := g3 _ _ hl
    obtain ⟨r4, h4, hl⟩ := g4 _ _ hl
    obtain ⟨r5, h5, hl⟩ := g5 _ _ hl
    obtain ⟨r6, h6, hl⟩ := g6 _ _ hl
    obtain ⟨r7, h7, hl⟩ := g7 _ _ hl
    obtain ⟨v, r, h⟩ := get_fail getInt_fail none hl ht
    simp [h1, h2, h3, h4, h5, h6, h7, h, get_bad, word_bad]

/-- **C111 fails** for lines without a layer name: they are taken, with an empty name. -/
theorem c111_layer_refuted {scale : ℚ} {l : Bytes} {w : Line} {r : FRec} (hl : Words l (w.words.take 10)) (hs : w.Says scale r) :
    parseDmcLine scale l = .ok (some { r with lyrName := [] }) := by
  obtain ⟨points, dark, layer, net, llx, urx, lly, ury, s1, hn, hsig, e1, e2, e3, e4, e5, e6, e7, e8, e9, e10, e11⟩ := hs
  obtain ⟨a, hne, ha, hp, hv, hp2⟩ := hn.points
  obtain ⟨r1, h1, hl⟩ := get_cons (g := getSize) (v := points) none hl (by rw [hp]; intro r hr; rw [getSize_text hne ha (by omega) r hr, hv])
  obtain ⟨r2, h2, hl⟩ := get_cons none hl (getInt_text hn.dark.1 hn.dark.2.1 hn.dark.2.2)
  obtain ⟨r3, h3, hl⟩ := get_cons none hl (getInt_text hn.layer.1 hn.layer.2.1 hn.layer.2.2)
  obtain ⟨r4, h4, hl⟩ := get_cons none hl (getReal_text hn.llx)
  obtain ⟨r5, h5, hl⟩ := get_cons none hl (getReal_text hn.urx)
  obtain ⟨r6, h6, hl⟩ := get_cons none hl (getReal_text hn.lly)
  obtain ⟨r7, h7, hl⟩ := get_cons none hl (getReal_text hn.ury)
  obtain ⟨r8, h8, hl⟩ := get_cons none hl (getInt_text hn.net.1 hn.net.2.1 hn.net.2.2)
  obtain ⟨r9, h9, hl⟩ := word_cons [] hl
  obtain ⟨r10, h10, hl⟩ := word_cons [] hl
  have hh := sig_head hsig
  unfold parseDmcLine
  simp only [h1, h2, h3, h4, h5, h6, h7, h8, h9, h10, word_nil [] hl]
  rw [if_neg hh.1, hh.2, sig_read hsig]
  simp only [use, Res.bind_ok, conv_cut e6, conv_cut e7, conv_cut e8, conv_cut e9]
  have hd : (dark == 0) = r.isHole := by
    rw [Bool.eq_iff_iff, e2]; simp
  rw [hd, ← e1, ← e3, ← e4, ← e5, ← e10]

/-- `std::stoi` throws where no number can be read -/
theorem stoi_noNum {t : Bytes} (h : NoNum t) (hb : ∀ c, t.head? = some c → isSpace c = false) : stoi t = .exn := by
  obtain ⟨c, u, rfl, h1, h2, h3, h4⟩ := h
  have hst : stol (c :: u) = none := by
    unfold stol
    rw [List.dropWhile_cons_of_neg (by rw [hb c rfl]; simp)]
    simp only
    split
    · next h => rw [List.cons.injEq] at h; omega
    · next h => rw [List.cons.injEq] at h; omega
    · rw [List.takeWhile_cons_of_neg (by rw [h1]; simp), if_pos rfl]
  unfold stoi
  rw [hst]

/-- **C111 fails** for lines whose tenth word is neither a number nor begins with `V`, for example if the name of the net is two words: an
exception is thrown. -/
theorem c111_exn_refuted (scale : ℚ) {l : Bytes} {w : Line} {rest : List Bytes} (hl : Words l (w.words.take 9 ++ w.sig :: rest)) (hs : NoNum w.sig)
    (hv : w.sig.head? ≠ some 86) {points : Nat} {dark layer net : Int} {llx urx lly ury : ℚ} (hn : w.Nums points dark layer net llx urx lly ury) :
    parseDmcLine scale l = .exn := by
  obtain ⟨a, hne, ha, hp, hv', hp2⟩ := hn.points
  obtain ⟨r1, h1, hl⟩ := get_cons (g := getSize) (v := points) none hl (by rw [hp]; intro r hr; rw [getSize_text hne ha (by omega) r hr, hv'])
  obtain ⟨r2, h2, hl⟩ := get_cons none hl (getInt_text hn.dark.1 hn.dark.2.1 hn.dark.2.2)
  obtain ⟨r3, h3, hl⟩ := get_cons none hl (getInt_text hn.layer.1 hn.layer.2.1 hn.layer.2.2)
  obtain ⟨r4, h4, hl⟩ := get_cons none hl (getReal_text hn.llx)
  obtain ⟨r5, h5, hl⟩ := get_cons none hl (getReal_text hn.urx)
  obtain ⟨r6, h6, hl⟩ := get_cons none hl (getReal_text hn.lly)
  obtain ⟨r7, h7, hl⟩ := get_cons none hl (getReal_text hn.ury)
  obtain ⟨r8, h8, hl⟩ := get_cons none hl (getInt_text hn.net.1 hn.net.2.1 hn.net.2.2)
  obtain ⟨r9, h9, hl⟩ := word_cons [] hl
  have hsp : ∀ c, w.sig.head? = some c → isSpace c = false := by
    cases hl with
    | cons hb hne ht hr h =>
      intro c hc
      exact ht c (List.mem_of_mem_head? hc)
  obtain ⟨r10, h10, hl⟩ := word_cons [] hl
  unfold parseDmcLine
  simp only [h1, h2, h3, h4, h5, h6, h7, h8, h9, h10]
  rw [if_neg (by obtain ⟨c, u, e, -⟩ := hs; rw [e]; simp)]
  have : (w.sig.head? == some 86) = false := by simpa using hv
  rw [this]
  simp only [use, Res.bind_ok, Bool.false_eq_true, if_false, stoi_noNum hs hsp, Res.bind_exn]

theorem get_good {α : Type} {g : Bytes → α × Bytes × Bool} {old : Option α} {s : Strm} (h : (s.get g old).2.good = true) :
    s.good = true ∧ ∃ v, (s.get g old).1 = some v := by
  unfold Strm.get at h ⊢
  cases hs : s.skip with
  | none => rw [hs] at h; cases h
  | some t =>
    refine ⟨?_, _, rfl⟩
    unfold Strm.skip at hs
    by_contra hg
    rw [if_neg hg] at hs
    cases hs

theorem word_good {s : Strm} (h : (s.word []).1 ≠ []) : s.good = true := by
  unfold Strm.word at h
  cases hs : s.skip with
  | none => rw [hs] at h; exact absurd rfl h
  | some t =>
    unfold Strm.skip at hs
    by_contra hg
    rw [if_neg hg] at hs
    cases hs

theorem word_good' {s : Strm} (h : (s.word []).2.good = true) : s.good = true := by
  unfold Strm.word at h
  cases hs : s.skip with
  | none => rw [hs] at h; cases h
  | some t =>
    unfold Strm.skip at hs
    by_contra hg
    rw [if_neg hg] at hs
    cases hs

/-- **C111**: whatever the line, no number is used that was not read, and in a record that is taken all numbers are set but the second signal layer
of a shape. -/
theorem c111_set (scale : ℚ) (l : Bytes) : (parseDmcLine scale l = .ub → ∃ q, conv (q * scale) = .ub) ∧
    ∀ r, parseDmcLine scale l = .ok (some r) → r.points ≠ none ∧ r.netId ≠ none ∧ r.layerId ≠ none ∧ r.sigLyr1 ≠ none ∧ (r.sigLyr2 ≠ none ↔ r.isVia = true) := by
  unfold parseDmcLine
  dsimp only
  generalize h1 : Strm.get getSize none ⟨l, true⟩ = x1
  generalize h2 : x1.2.get getInt none = x2
  generalize h3 : x2.2.get getInt none = x3
  generalize h4 : x3.2.get getReal none = x4
  generalize h5 : x4.2.get getReal none = x5
  generalize h6 : x5.2.get getReal none = x6
  generalize h7 : x6.2.get getReal none = x7
  generalize h8 : x7.2.get getInt none = x8
  generalize h9 : x8.2.word [] = x9
  generalize h10 : x9.2.word [] = x10
  generalize h11 : x10.2.word [] = x11
  by_cases h0 : x10.1 = []
  · simp [h0]
  rw [if_neg h0]
  have g9 := word_good (s := x9.2) (by rw [h10]; exact h0)
  have g8 := word_good' (s := x8.2) (by rw [h9]; exact g9)
  obtain ⟨g7, v8, e8⟩ := get_good (s := x7.2) (by rw [h8]; exact g8)
  obtain ⟨g6, v7, e7⟩ := get_good (s := x6.2) (by rw [h7]; exact g7)
  obtain ⟨g5, v6, e6⟩ := get_good (s := x5.2) (by rw [h6]; exact g6)
  obtain ⟨g4, v5, e5⟩ := get_good (s := x4.2) (by rw [h5]; exact g5)
  obtain ⟨g3, v4, e4⟩ := get_good (s := x3.2) (by rw [h4]; exact g4)
  obtain ⟨g2, v3, e3⟩ := get_good (s := x2.2) (by rw [h3]; exact g3)
  obtain ⟨g1, v2, e2⟩ := get_good (s := x1.2) (by rw [h2]; exact g2)
  obtain ⟨-, v1, e1⟩ := get_good (s := ⟨l, true⟩) (by rw [h1]; exact g1)
  rw [h1] at e1; rw [h2] at e2; rw [h3] at e3; rw [h4] at e4; rw [h5] at e5; rw [h6] at e6; rw [h7] at e7; rw [h8] at e8
  rw [e1, e2, e3, e4, e5, e6, e7, e8]
  simp only [use, Res.bind_ok]
  have hsig : ∀ (v : Bool) (t : Bytes), (∃ o : Option (Option Int × Option Int), (if v = true then (getSigLayers t).bind fun x => .ok (x.map fun p => (some p.1, some p.2))
      else (stoi t).bind fun i => .ok (some (some i, none))) = Res.ok o ∧ ∀ s, o = some s → s.1 ≠ none ∧ (s.2 ≠ none ↔ v = true)) ∨
      (if v = true then (getSigLayers t).bind fun x => .ok (x.map fun p => (some p.1, some p.2))
      else (stoi t).bind fun i => .ok (some (some i, none))) = (Res.exn : Res (Option (Option Int × Option Int))) := by
    have hst : ∀ t, (∃ i, stoi t = .ok i) ∨ stoi t = .exn := by
      intro t
      unfold stoi
      cases stol t with
      | none => exact .inr rfl
      | some v =>
        dsimp only
        split
        · exact .inl ⟨_, rfl⟩
        · exact .inr rfl
    intro v t
    cases v with
    | false =>
      rcases hst t with ⟨i, h⟩ | h
      · left; rw [h]; exact ⟨_, rfl, by simp⟩
      · right; rw [h]; rfl
    | true =>
      rw [if_pos rfl]
      have : (∃ o, getSigLayers t = .ok o) ∨ getSigLayers t = .exn := by
        unfold getSigLayers
        split
        · exact .inl ⟨_, rfl⟩
        · split
          · exact .inl ⟨_, rfl⟩
          · split
            · rename_i a b _
              rcases hst a with ⟨i, h⟩ | h
              · rcases hst b with ⟨j, h'⟩ | h'
                · left; rw [h, h']; exact ⟨_, rfl⟩
                · right; rw [h, h']; rfl
              · right; rw [h]; rfl
            · exact .inl ⟨_, rfl⟩
      rcases this with ⟨o, h⟩ | h
      · left
        rw [h]
        refine ⟨_, rfl, ?_⟩
        intro s hs
        cases o with
        | none => cases hs
        | some p => simp only [Option.map_some, Option.some.injEq] at hs; subst hs; simp
      · right; rw [h]; rfl
  rcases hsig (x10.1.head? == some 86) x10.1 with ⟨o, ho, hv⟩ | ho
  · rw [ho, Res.bind_ok]
    cases o with
    | none => simp
    | some sg =>
      dsimp only
      have hv := hv sg rfl
      have hconv : ∀ q, (∃ z, conv q = .ok z) ∨ conv q = .ub := by
        intro q
        unfold conv
        split
        · exact .inl ⟨_, rfl⟩
        · exact .inr rfl
      rcases hconv (v4 * scale) with ⟨z4, c4⟩ | c4
      · rcases hconv (v5 * scale) with ⟨z5, c5⟩ | c5
        · rcases hconv (v6 * scale) with ⟨z6, c6⟩ | c6
          · rcases hconv (v7 * scale) with ⟨z7, c7⟩ | c7
            · rw [c4, c5, c6, c7]
              refine ⟨by simp, ?_⟩
              intro r hr
              simp only [Res.bind_ok, Res.ok.injEq, Option.some.injEq] at hr
              subst hr
              exact ⟨by simp, by simp, by simp, hv.1, hv.2⟩
            · exact ⟨fun _ => ⟨_, c7⟩, by rw [c4, c5, c6, c7]; simp⟩
          · exact ⟨fun _ => ⟨_, c6⟩, by rw [c4, c5, c6]; simp⟩
        · exact ⟨fun _ => ⟨_, c5⟩, by rw [c4, c5]; simp⟩
      · exact ⟨fun _ => ⟨_, c4⟩, by rw [c4]; simp⟩
  · rw [ho]
    simp

/-! ## files -/

/-- lines with line feeds between them -/
def joinLines : List Bytes → Bytes
  | [] => []
  | [l] => l
  | l :: ls => l ++ 10 :: joinLines ls

theorem fileLines_last (l : Bytes) (h : 10 ∉ l) (cur : Bytes) : fileLines cur l = [cur ++ l] := by
  induction l generalizing cur with
  | nil => simp [fileLines]
  | cons c l ih =>
    rw [fileLines, if_neg (by intro e; exact h (by simp [e])), ih (fun e => h (by simp [e]))]
    simp

theorem fileLines_join {ls : List Bytes} (hne : ls ≠ []) (h : ∀ l ∈ ls, 10 ∉ l) : fileLines [] (joinLines ls) = ls := by
  induction ls with
  | nil => exact absurd rfl hne
  | cons l ls ih =>
    cases ls with
    | nil => rw [joinLines, fileLines_last l (h l (by simp)), List.nil_append]
    | cons l' ls =>
      rw [joinLines, Ctm.fileLines_line l (h l (by simp)), ih (by simp) fun x hx => h x (List.mem_cons_of_mem _ hx)]
      · rfl
      · simp

/-- a line says a record -/
def SaysLine (scale : ℚ) (l : Bytes) (r : FRec) : Prop := ∃ (w : Line) (extra : List Bytes), Words l (w.words ++ extra) ∧ w.Says scale r

theorem dmcLines_ok (scale : ℚ) : ∀ (ls : List Bytes) (rs : List FRec) (n : Nat) (acc : List FRec) (post : List Bytes),
    List.Forall₂ (SaysLine scale) (ls.filter fun l => decide (l ≠ [])) rs →
    dmcLines scale n (ls ++ post) acc = dmcLines scale (n + ls.length) post (acc ++ rs) := by
  intro ls
  induction ls with
  | nil =>
    intro rs n acc post h
    cases h
    simp
  | cons l ls ih =>
    intro rs n acc post h
    rw [List.cons_append, dmcLines]
    by_cases hl : l = []
    · rw [if_pos hl, ih rs (n + 1) acc post (by simpa [hl] using h)]
      congr 1
      simp only [List.length_cons]
      omega
    · rw [if_neg hl]
      rw [List.filter_cons_of_pos (by simpa using hl)] at h
      cases h with
      | cons h1 h2 =>
        rename_i r rs
        obtain ⟨w, extra, hw, hs⟩ := h1
        rw [c111_line hw hs, Res.bind_ok]
        dsimp only
        rw [ih rs (n + 1) (acc ++ [r]) post h2]
        rw [List.append_assoc, List.singleton_append]
        congr 1
        simp only [List.length_cons]
        omega

/-- **C111** for DMC files: a file whose lines that are not empty say records is read as these records, in their order. -/
theorem c111_dmc (scale : ℚ) {ls : List Bytes} (hne : ls ≠ []) (hlf : ∀ l ∈ ls, 10 ∉ l) {rs : List FRec}
    (h : List.Forall₂ (SaysLine scale) (ls.filter fun l => decide (l ≠ [])) rs) :
    parseDmcFile scale (some (joinLines ls)) = .ok (.ok rs) := by
  unfold parseDmcFile
  dsimp only
  rw [fileLines_join hne hlf]
  have := dmcLines_ok scale ls rs 0 [] [] h
  rw [List.append_nil, List.nil_append] at this
  rw [this]
  rfl

/-- **C111**: the first line that is rejected makes the file rejected, with its number, whatever follows; lines are rejected if they end before
the signal layer or have a word where a number is expected. -/
theorem c111_stop (scale : ℚ) {pre post : List Bytes} {l : Bytes} (hlf : ∀ x ∈ pre ++ l :: post, 10 ∉ x) (hl0 : l ≠ []) {rs : List FRec}
    (h : List.Forall₂ (SaysLine scale) (pre.filter fun l => decide (l ≠ [])) rs) {w : Line} {k : Nat}
    {points : Nat} {dark layer net : Int} {llx urx lly ury : ℚ} (hn : w.Nums points dark layer net llx urx lly ury)
    (hl : (k < 10 ∧ Words l (w.words.take k)) ∨ (k < 8 ∧ ∃ t rest, NoNum t ∧ Words l (w.words.take k ++ t :: rest))) :
    parseDmcFile scale (some (joinLines (pre ++ l :: post))) = .ok (.error (.line (pre.length + 1))) := by
  unfold parseDmcFile
  dsimp only
  rw [fileLines_join (by simp) hlf]
  rw [dmcLines_ok scale pre rs 0 [] (l :: post) h, dmcLines, if_neg hl0]
  have : parseDmcLine scale l = .ok none := by
    rcases hl with ⟨hk, hl⟩ | ⟨hk, t, rest, ht, hl⟩
    · exact c111_short scale hk hl hn
    · exact c111_number scale hk hl ht hn
  rw [this, Res.bind_ok]
  simp

/-- a line of a DOM file says a point -/
def SaysPoint (scale : ℚ) (l : Bytes) (p : Int × Int) : Prop :=
  ∃ (tx ty : Bytes) (extra : List Bytes) (x y : ℚ), Words l (tx :: ty :: extra) ∧ IsDec tx x ∧ IsDec ty y ∧ IsCut (x * scale) p.1 ∧ IsCut (y * scale) p.2

theorem dom_line {scale : ℚ} {l : Bytes} {p : Int × Int} (h : SaysPoint scale l p) (ps : List (Int × Int)) :
    parseDomLine scale l ps = .ok (ps ++ [p], true) := by
  obtain ⟨tx, ty, extra, x, y, hl, hx, hy, h1, h2⟩ := h
  obtain ⟨r1, g1, hl⟩ := get_cons (some 0) hl (getReal_text hx)
  obtain ⟨r2, g2, hl⟩ := get_cons (some 0) hl (getReal_text hy)
  unfold parseDomLine
  simp only [g1, g2, Option.getD_some, conv_cut h1, conv_cut h2, Res.bind_ok]

/-- **C111** for DOM files: a file whose lines that are not empty say points is read as these points, in their order. -/
theorem c111_dom (scale : ℚ) {ls : List Bytes} (hne : ls ≠ []) (hlf : ∀ l ∈ ls, 10 ∉ l) {ps : List (Int × Int)}
    (h : List.Forall₂ (SaysPoint scale) (ls.filter fun l => decide (l ≠ [])) ps) :
    parseDomFile scale (some (joinLines ls)) = .ok (.ok ps) := by
  unfold parseDomFile
  dsimp only
  rw [fileLines_join hne hlf]
  have : ∀ (ls : List Bytes) (ps : List (Int × Int)) (n : Nat) (acc : List (Int × Int)),
      List.Forall₂ (SaysPoint scale) (ls.filter fun l => decide (l ≠ [])) ps → domLines scale n ls acc = .ok (.ok (acc ++ ps)) := by
    intro ls
    induction ls with
    | nil =>
      intro ps n acc h
      cases h
      simp [domLines]
    | cons l ls ih =>
      intro ps n acc h
      rw [domLines]
      by_cases hl : l = []
      · rw [if_pos hl, ih ps (n + 1) acc (by simpa [hl] using h)]
      · rw [if_neg hl]
        rw [List.filter_cons_of_pos (by simpa using hl)] at h
        cases h with
        | cons h1 h2 =>
          rename_i p ps
          rw [dom_line h1, Res.bind_ok]
          dsimp only
          rw [if_pos rfl, ih ps (n + 1) (acc ++ [p]) h2]
          simp
  rw [this ls ps 0 [] h, List.nil_append]

/-- **C111 fails** for DOM files: no file is rejected for its text. -/
theorem c111_accept_refuted (scale : ℚ) (b : Bytes) (n : Nat) : parseDomFile scale (some b) ≠ .ok (.error (.line n)) := by
  unfold parseDomFile
  dsimp only
  generalize fileLines [] b = ls
  have : ∀ (ls : List Bytes) (k : Nat) (acc : List (Int × Int)), domLines scale k ls acc ≠ .ok (.error (.line n)) := by
    intro ls
    induction ls with
    | nil => intro k acc h; simp [domLines] at h
    | cons l ls ih =>
      intro k acc
      rw [domLines]
      by_cases hl : l = []
      · rw [if_pos hl]; exact ih _ _
      · rw [if_neg hl]
        unfold parseDomLine
        dsimp only
        cases conv ((Strm.get getReal (some 0) ⟨l, true⟩).1.getD 0 * scale) with
        | ub => simp
        | exn => simp
        | ok a =>
          rw [Res.bind_ok]
          cases conv (((Strm.get getReal (some 0) ⟨l, true⟩).2.get getReal (some 0)).1.getD 0 * scale) with
          | ub => simp
          | exn => simp
          | ok b =>
            rw [Res.bind_ok, Res.bind_ok]
            dsimp only
            rw [if_pos rfl]
            exact ih _ _
  exact this ls 0 []

theorem conv_zero : conv 0 = .ok 0 := conv_cut ⟨fun _ => by norm_num, fun _ => by norm_num, by norm_num, by norm_num⟩

theorem getReal_fail_val (c : Nat) (u : Bytes) (h : isDig c = false) (h1 : c ≠ 43) (h2 : c ≠ 45) (h3 : c ≠ 46) : (getReal (c :: u)).1 = 0 := by
  unfold getReal
  rw [sign_noNum u h1 h2]
  dsimp only
  rw [List.dropWhile_cons_of_neg (by rw [h]; simp), frac_none (by intro x hx; simp only [List.head?_cons, Option.some.injEq] at hx; omega),
    if_pos ⟨by rw [List.takeWhile_cons_of_neg (by rw [h]; simp)], rfl⟩]

/-- **C111 fails** for lines of a DOM file that are blank (as the carriage return of an empty line) or begin with a word: the origin is added; a line
of one number adds a point with ordinate zero. -/
theorem c111_origin_refuted (scale : ℚ) {l : Bytes} (ps : List (Int × Int)) :
    (Words l [] ∨ (∃ t ts, Words l (t :: ts) ∧ NoNum t) → parseDomLine scale l ps = .ok (ps ++ [(0, 0)], true)) ∧
    (∀ t x z, Words l [t] → IsDec t x → IsCut (x * scale) z → parseDomLine scale l ps = .ok (ps ++ [(z, 0)], true)) := by
  constructor
  · rintro (h | ⟨t, ts, h, ht⟩)
    · unfold parseDomLine
      simp [get_nil getReal _ h, get_bad, conv_zero]
    · unfold parseDomLine
      have : Strm.get getReal (some 0) ⟨l, true⟩ = (some 0, ⟨(Strm.get getReal (some 0) ⟨l, true⟩).2.rest, false⟩) := by
        cases h with
        | cons hb hne hts hr h =>
          obtain ⟨c, u, rfl, hc1, hc2, hc3, hc4⟩ := ht
          unfold Strm.get
          rw [skip_cons hb hne hts]
          dsimp only
          rw [List.cons_append, getReal_fail c _ hc1 hc2 hc3 hc4, getReal_fail_val c _ hc1 hc2 hc3 hc4]
      rw [this]
      simp [get_bad, conv_zero]
  · intro t x z h hx hz
    obtain ⟨r1, g1, h⟩ := get_cons (some 0) h (getReal_text hx)
    unfold parseDomLine
    simp [g1, get_nil getReal _ h, conv_cut hz, conv_zero]

/-- **C111 fails** for numbers between coordinates: they are cut, not rounded: a point three quarters on the way lands at the start. -/
theorem c111_cut_refuted (scale : ℚ) {l : Bytes} {tx ty : Bytes} {x y : ℚ} (hl : Words l [tx, ty]) (hx : IsDec tx x) (hy : IsDec ty y) (p : Int × Int)
    (h1 : IsCut (x * scale) p.1) (h2 : IsCut (y * scale) p.2) (h0 : 0 ≤ x * scale) (hh : (p.1 : ℚ) + 1 / 2 < x * scale) :
    ∃ q, parseDomLine scale l [] = .ok ([q], true) ∧ |(q.1 + 1 : ℚ) - x * scale| < |(q.1 : ℚ) - x * scale| := by
  refine ⟨p, ?_, ?_⟩
  · have := dom_line (ps := []) (⟨tx, ty, [], x, y, hl, hx, hy, h1, h2⟩ : SaysPoint scale l p)
    simpa using this
  · have := h1.1 h0
    rw [abs_of_pos (by linarith), abs_of_neg (by linarith)]
    linarith

/-- **C111**: the database is made from what the files say (C52, C73). -/
theorem c111_load (junk : Int) (scale : ℚ) {ls ls' : List Bytes} (hne : ls ≠ []) (hlf : ∀ l ∈ ls, 10 ∉ l) (hne' : ls' ≠ []) (hlf' : ∀ l ∈ ls', 10 ∉ l)
    {ps : List (Int × Int)} {rs : List FRec} (h : List.Forall₂ (SaysPoint scale) (ls.filter fun l => decide (l ≠ [])) ps)
    (h' : List.Forall₂ (SaysLine scale) (ls'.filter fun l => decide (l ≠ [])) rs) :
    load junk scale (some (joinLines ls)) (some (joinLines ls')) = (importDmc (rs.map (FRec.toRec junk)) ps).bind fun x => .ok (.ok x) := by
  unfold load
  rw [c111_dom scale hne hlf h, Res.bind_ok]
  dsimp only
  rw [c111_dmc scale hne' hlf' h', Res.bind_ok]

/-- **C111 fails** for files that are missing: nothing says so. -/
theorem c111_open_refuted (junk : Int) (scale : ℚ) (dmc : Option Bytes) : load junk scale none dmc = .ok (.error .open_) := rfl

/-! ### examples -/

/-- `4 1 2 0.5 -1 .25 10 7 GND 3 TOP` -/
def exLine : Line := ⟨[52], [49], [50], [48, 46, 53], [45, 49], [46, 50, 53], [49, 48], [55], [71, 78, 68], [51], [84, 79, 80]⟩
def exFRec : FRec := ⟨false, false, some 7, some 2, some 3, none, some 4, (500, 250, -1000, 10000), [71, 78, 68], [84, 79, 80]⟩

theorem ex_nums : exLine.Nums 4 1 2 7 (1 / 2) (-1) (1 / 4) 10 where
  points := ⟨[4], by decide, by decide, rfl, by decide, by decide⟩
  dark := ⟨⟨[], 1, [1], .inl ⟨rfl, rfl⟩, by decide, by decide, rfl, by decide⟩, by unfold Int32Ok; decide⟩
  layer := ⟨⟨[], 1, [2], .inl ⟨rfl, rfl⟩, by decide, by decide, rfl, by decide⟩, by unfold Int32Ok; decide⟩
  llx := ⟨[], 1, [0], [5], true, .inl ⟨rfl, rfl⟩, by decide, by decide, by decide, by decide, rfl, by decide +kernel⟩
  urx := ⟨[45], -1, [1], [], false, .inr (.inr ⟨rfl, rfl⟩), by decide, by decide, by decide, by decide, rfl, by decide +kernel⟩
  lly := ⟨[], 1, [], [2, 5], true, .inl ⟨rfl, rfl⟩, by decide, by decide, by decide, by decide, rfl, by decide +kernel⟩
  ury := ⟨[], 1, [1, 0], [], false, .inl ⟨rfl, rfl⟩, by decide, by decide, by decide, by decide, rfl, by decide +kernel⟩
  net := ⟨⟨[], 1, [7], .inl ⟨rfl, rfl⟩, by decide, by decide, rfl, by decide⟩, by unfold Int32Ok; decide⟩

theorem ex_cut {q : ℚ} {z : Int} (h : q = z) (h1 : -2 ^ 63 ≤ z) (h2 : z < 2 ^ 63) : IsCut q z := by
  subst h
  exact ⟨fun _ => ⟨le_refl _, by linarith⟩, fun _ => ⟨le_refl _, by linarith⟩, h1, h2⟩

/-- the hypotheses of the theorems on lines -/
theorem ex_says : exLine.Says 1000 exFRec :=
  ⟨4, 1, 2, 7, 1 / 2, -1, 1 / 4, 10, 3, ex_nums, .layer ⟨[], 1, [3], .inl ⟨rfl, rfl⟩, by decide, by decide, rfl, by decide⟩ (by unfold Int32Ok; decide),
    rfl, by decide, rfl, rfl, rfl, ex_cut (by norm_num [exFRec]) (by decide) (by decide), ex_cut (by norm_num [exFRec]) (by decide) (by decide),
    ex_cut (by norm_num [exFRec]) (by decide) (by decide), ex_cut (by norm_num [exFRec]) (by decide) (by decide), rfl, rfl⟩

/-- a line of the words with a blank after each -/
theorem ex_words : ∀ ts : List Bytes, (∀ t ∈ ts, t ≠ [] ∧ ∀ c ∈ t, isSpace c = false) → Words (ts.flatMap fun t => t ++ [32]) ts := by
  intro ts h
  have : ∀ ts : List Bytes, (∀ t ∈ ts, t ≠ [] ∧ ∀ c ∈ t, isSpace c = false) → Words (32 :: ts.flatMap fun t => t ++ [32]) ts := by
    intro ts
    induction ts with
    | nil => intro _; exact .nil (by intro c hc; simp at hc; subst hc; rfl)
    | cons t ts ih =>
      intro h
      have hh := h t (by simp)
      have := Words.cons (b := [32]) (by intro c hc; simp at hc; subst hc; rfl) hh.1 hh.2 (by intro c hc; simp at hc; subst hc; rfl)
        (ih fun x hx => h x (by simp [hx]))
      simpa using this
  cases ts with
  | nil => exact .nil (by simp)
  | cons t ts =>
    have hh := h t (by simp)
    have := Words.cons (b := []) (by simp) hh.1 hh.2 (by intro c hc; simp at hc; subst hc; rfl) (this ts fun x hx => h x (by simp [hx]))
    simpa using this

example : SaysLine 1000 (exLine.words.flatMap fun t => t ++ [32]) exFRec :=
  ⟨exLine, [], by rw [List.append_nil]; exact ex_words _ (by decide), ex_says⟩
/-- a record, an empty line and a carriage return -/
example : parseDmcFile 1000 (some ((exLine.words.flatMap fun t => t ++ [32]) ++ [10, 10])) = .ok (.ok [exFRec]) := by decide +kernel
example : parseDmcFile 1000 (some ((exLine.words.flatMap fun t => t ++ [32]) ++ [10, 13, 10])) = .ok (.error (.line 2)) := by decide +kernel
/-- a via between layers -/
example : (match parseDmcLine 1 ({ exLine with sig := [86, 49, 45, 49, 50] }.words.flatMap fun t => t ++ [32]) with
    | .ok (some r) => (r.isVia, r.sigLyr1, r.sigLyr2)
    | _ => (false, none, none)) = (true, some 1, some 12) := by decide +kernel
/-- a name of two words -/
example : parseDmcLine 1 ({ exLine with netName := [65, 32, 66] }.words.flatMap fun t => t ++ [32]) = .exn := by decide +kernel
/-- a blank line of a DOM file -/
example : parseDomFile 1000 (some [49, 32, 50, 13, 10, 13, 10, 51, 32, 45, 49]) = .ok (.ok [(1000, 2000), (0, 0), (3000, -1000)]) := by decide +kernel
/-- three quarters -/
example : parseDomFile 1 (some [46, 55, 53, 32, 45, 46, 55, 53]) = .ok (.ok [(0, 0)]) := by decide +kernel

end Ecad.Dmc
