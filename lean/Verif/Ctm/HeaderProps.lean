import Verif.Ctm.HeaderModel
import Mathlib.Tactic.Ring
import Mathlib.Algebra.Order.Field.Basic
import Mathlib.Data.List.Infix
import Mathlib.Tactic.FieldSimp
import Mathlib.Tactic.Linarith
import Mathlib.Tactic.Push
import Mathlib.Tactic.NormNum
/-!
C39 and C74: encryption and the header file of chip thermal models.
-/
namespace Ecad.Ctm

/-! ## numbers -/

theorem isDig_add (k : Nat) (h : k < 10) : isDig (48 + k) = true := by
  simp only [isDig, Bool.and_eq_true, decide_eq_true_eq]
  omega

theorem digs_dig (n : Nat) : ∀ c ∈ digs n, isDig c = true := by
  induction n using digs.induct with
  | case1 n h =>
    intro c hc
    rw [digs, dif_pos h, List.mem_singleton] at hc
    rw [hc]
    exact isDig_add n h
  | case2 n h ih =>
    intro c hc
    rw [digs, dif_neg h, List.mem_append, List.mem_singleton] at hc
    rcases hc with hc | hc
    · exact ih c hc
    · rw [hc]
      exact isDig_add _ (by omega)

theorem digs_ne (n : Nat) : digs n ≠ [] := by
  rw [digs]
  split <;> simp

theorem digitsVal_append (a : Bytes) (c : Nat) : digitsVal (a ++ [c]) = 10 * digitsVal a + (c - 48) := by
  simp [digitsVal]

theorem digitsVal_digs (n : Nat) : digitsVal (digs n) = n := by
  induction n using digs.induct with
  | case1 n h =>
    rw [digs, dif_pos h]
    simp [digitsVal]
  | case2 n h ih =>
    rw [digs, dif_neg h, digitsVal_append, ih]
    omega

theorem pad6_dig (n : Nat) : ∀ c ∈ pad6 n, isDig c = true := by
  intro c hc
  simp only [pad6, List.mem_cons, List.not_mem_nil, or_false] at hc
  rcases hc with rfl | rfl | rfl | rfl | rfl | rfl <;> exact isDig_add _ (by omega)

theorem digitsVal_pad6 (n : Nat) (h : n < 1000000) : digitsVal (pad6 n) = n := by
  simp only [digitsVal, pad6, List.foldl_cons, List.foldl_nil, Nat.add_sub_cancel_left]
  omega

theorem takeWhile_dig {a b : Bytes} (ha : ∀ c ∈ a, isDig c = true) (hb : ∀ c, b.head? = some c → isDig c = false) :
    (a ++ b).takeWhile isDig = a ∧ (a ++ b).dropWhile isDig = b := by
  induction a with
  | nil =>
    cases b with
    | nil => simp
    | cons c b => simp [hb c rfl]
  | cons c a ih =>
    have := ih fun x hx => ha x (by simp [hx])
    simp [ha c (by simp), this]

theorem stodAbs_text (a b : Nat) (hb : b < 1000000) : stodAbs (digs a ++ 46 :: pad6 b) = some ((a : ℚ) + (b : ℚ) / 1000000) := by
  have h1 := takeWhile_dig (b := 46 :: pad6 b) (digs_dig a) (by simp [isDig])
  have h2 := takeWhile_dig (b := []) (pad6_dig b) (by simp)
  rw [List.append_nil] at h2
  unfold stodAbs
  rw [h1.1, h1.2]
  simp only [h2.1]
  rw [if_neg (fun h => digs_ne a h.1), digitsVal_digs, digitsVal_pad6 b hb]
  have : (pad6 b).length = 6 := rfl
  rw [this]
  norm_num

theorem digs_head (n : Nat) : ∃ c t, digs n = c :: t ∧ 48 ≤ c ∧ c ≤ 57 := by
  cases h : digs n with
  | nil => exact absurd h (digs_ne n)
  | cons c t =>
    have := digs_dig n c (by rw [h]; simp)
    simp only [isDig, Bool.and_eq_true, decide_eq_true_eq] at this
    exact ⟨c, t, rfl, this⟩

theorem isSpace_of {c : Nat} (h : 33 ≤ c) : isSpace c = false := by
  simp only [isSpace, Bool.or_eq_false_iff, Bool.and_eq_false_iff, decide_eq_false_iff_not, beq_eq_false_iff_ne]
  omega

/-- a number printed is read back -/
theorem stod_fmtMicro (k : Int) : stod (fmtMicro k) = some ((k : ℚ) / 1000000) := by
  have hv : stodAbs (digs (k.natAbs / 1000000) ++ 46 :: pad6 (k.natAbs % 1000000)) = some ((k.natAbs : ℚ) / 1000000) := by
    rw [stodAbs_text _ _ (Nat.mod_lt _ (by norm_num)), Option.some.injEq]
    have h := Nat.div_add_mod k.natAbs 1000000
    have h' : (1000000 : ℚ) * ((k.natAbs / 1000000 : Nat) : ℚ) + ((k.natAbs % 1000000 : Nat) : ℚ) = (k.natAbs : ℚ) := by exact_mod_cast h
    rw [← h']
    field_simp
  obtain ⟨c, t, hc, h1, h2⟩ := digs_head (k.natAbs / 1000000)
  unfold stod fmtMicro
  by_cases hk : k < 0
  · rw [if_pos hk]
    have : ([45] ++ digs (k.natAbs / 1000000) ++ 46 :: pad6 (k.natAbs % 1000000)).dropWhile isSpace =
        45 :: (digs (k.natAbs / 1000000) ++ 46 :: pad6 (k.natAbs % 1000000)) := by
      simp [isSpace_of]
    rw [this]
    simp only
    rw [hv, Option.map_some]
    have : (k.natAbs : ℚ) = -(k : ℚ) := by
      have h : ((k.natAbs : Int) : ℚ) = ((-k : Int) : ℚ) := by
        congr 1
        omega
      simpa using h
    rw [this]
    congr 1
    ring
  · rw [if_neg hk]
    have hd : ([] ++ digs (k.natAbs / 1000000) ++ 46 :: pad6 (k.natAbs % 1000000)).dropWhile isSpace =
        digs (k.natAbs / 1000000) ++ 46 :: pad6 (k.natAbs % 1000000) := by
      rw [List.nil_append, hc, List.cons_append, List.dropWhile_cons_of_neg (by rw [isSpace_of (by omega)]; simp)]
    rw [hd]
    have : (k.natAbs : ℚ) = (k : ℚ) := by
      have h : ((k.natAbs : Int) : ℚ) = ((k : Int) : ℚ) := by
        congr 1
        omega
      simpa using h
    rw [hc, List.cons_append] at hv ⊢
    split
    · next h => rw [List.cons.injEq] at h; omega
    · next h => rw [List.cons.injEq] at h; omega
    · rw [hv, this]

theorem stol_digs (n : Nat) : stol (digs n) = some (n : Int) := by
  obtain ⟨c, t, hc, h1, h2⟩ := digs_head n
  have hd : (digs n).dropWhile isSpace = digs n := by
    rw [hc, List.dropWhile_cons_of_neg (by rw [isSpace_of (by omega)]; simp)]
  have ht := (takeWhile_dig (b := []) (digs_dig n) (by simp)).1
  rw [List.append_nil] at ht
  unfold stol
  rw [hd]
  simp only
  split
  · next h => rw [hc, List.cons.injEq] at h; omega
  · next h => rw [hc, List.cons.injEq] at h; omega
  · rw [ht, if_neg (digs_ne n), digitsVal_digs]

theorem toSize_nat {n : Nat} (h : n < 2 ^ 64) : toSize (n : Int) = n := by
  unfold toSize
  rw [Int.emod_eq_of_lt (by omega) (by exact_mod_cast h)]
  simp

/-- the bytes of a printed number -/
theorem fmtMicro_byte (k : Int) : ∀ c ∈ fmtMicro k, 45 ≤ c ∧ c ≤ 57 := by
  intro c hc
  have hd : ∀ c, isDig c = true → 45 ≤ c ∧ c ≤ 57 := by
    intro c h
    simp only [isDig, Bool.and_eq_true, decide_eq_true_eq] at h
    omega
  unfold fmtMicro at hc
  rw [List.mem_append, List.mem_append, List.mem_cons] at hc
  rcases hc with (hc | hc) | rfl | hc
  · split at hc
    · rw [List.mem_singleton] at hc
      omega
    · simp at hc
  · exact hd c (digs_dig _ c hc)
  · omega
  · exact hd c (pad6_dig _ c hc)

theorem fmtMicro_ne (k : Int) : fmtMicro k ≠ [] := by
  unfold fmtMicro
  simp

/-! ## encryption -/

/-- C39: decrypting what was encrypted gives the text back, for all bytes and lengths -/
theorem c39_decrypt (s : Bytes) (hs : ∀ c ∈ s, c < 256) (len : Nat) : decryptText (encrypt s len) len = s := by
  unfold decryptText encrypt
  rw [List.map_map]
  conv_rhs => rw [← List.map_id s]
  refine List.map_congr_left fun c hc => ?_
  have := hs c hc
  simp only [Function.comp_apply, id]
  omega

/-- and encrypting what was decrypted -/
theorem c39_encrypt (s : Bytes) (hs : ∀ c ∈ s, c < 256) (len : Nat) : encrypt (decryptText s len) len = s := by
  unfold decryptText encrypt
  rw [List.map_map]
  conv_rhs => rw [← List.map_id s]
  refine List.map_congr_left fun c hc => ?_
  have := hs c hc
  simp only [Function.comp_apply, id]
  omega

/-- what a printed number is read as -/
def r6 (rnd : ℚ → Int) (x : ℚ) : ℚ := (rnd (x * 1000000) : ℚ) / 1000000

theorem stod_fmt (rnd : ℚ → Int) (x : ℚ) : stod (fmt rnd x) = some (r6 rnd x) := stod_fmtMicro _

/-- C39: an encrypted number is read back, with six digits, if it is not negative -/
theorem c39_number (rnd : ℚ → Int) (x : ℚ) (len : Nat) (hx : 0 ≤ rnd (x * 1000000)) : decrypt (encrypt (fmt rnd x) len) len = .ok (r6 rnd x) := by
  unfold decrypt
  rw [c39_decrypt _ (fun c hc => by have := fmtMicro_byte _ c hc; omega), stod_fmt, orExn, Res.bind_ok, if_pos]
  unfold r6
  have : (0 : ℚ) ≤ (rnd (x * 1000000) : ℚ) := by exact_mod_cast hx
  exact div_nonneg this (by norm_num)

/-- C39 fails for negative numbers: they are read as zero -/
theorem c39_negative_refuted (rnd : ℚ → Int) (x : ℚ) (len : Nat) (hx : rnd (x * 1000000) < 0) :
    decrypt (encrypt (fmt rnd x) len) len = .ok 0 ∧ r6 rnd x ≠ 0 := by
  have h : (rnd (x * 1000000) : ℚ) < 0 := by exact_mod_cast hx
  have h' : r6 rnd x < 0 := by
    unfold r6
    linarith [div_neg_of_neg_of_pos h (by norm_num : (0 : ℚ) < 1000000)]
  constructor
  · unfold decrypt
    rw [c39_decrypt _ (fun c hc => by have := fmtMicro_byte _ c hc; omega), stod_fmt, orExn, Res.bind_ok, if_neg (by push Not; exact h')]
  · exact h'.ne

/-! ## lines and items -/

/-- an item: not empty, without blanks and control characters -/
def Tok (t : Bytes) : Prop := t ≠ [] ∧ ∀ c ∈ t, 32 < c

/-- the bytes at which `Split` cuts: the blank, and perhaps control characters -/
structure Blank (sep : Nat → Bool) : Prop where
  blank : sep 32 = true
  only : ∀ c, sep c = true → c ≤ 32

variable {sep : Nat → Bool}

theorem Blank.tok (hs : Blank sep) {t : Bytes} (ht : Tok t) : ∀ c ∈ t, sep c = false := by
  intro c hc
  by_contra h
  have := hs.only c (by simpa using h)
  have := ht.2 c hc
  omega

theorem splitAux_tok (t : Bytes) (ht : ∀ c ∈ t, sep c = false) (cur rest : Bytes) :
    splitAux sep cur (t ++ rest) = splitAux sep (cur ++ t) rest := by
  induction t generalizing cur with
  | nil => simp
  | cons c t ih =>
    rw [List.cons_append, splitAux, if_neg (by simp [ht c (by simp)]), ih fun x hx => ht x (by simp [hx])]
    simp

theorem split_blank (hs : Blank sep) (rest : Bytes) : split sep (32 :: rest) = split sep rest := by
  unfold split
  rw [splitAux, if_pos hs.blank, if_pos rfl]

theorem split_blanks (hs : Blank sep) (n : Nat) (rest : Bytes) : split sep (List.replicate n 32 ++ rest) = split sep rest := by
  induction n with
  | zero => rfl
  | succ n ih => rw [List.replicate_succ, List.cons_append, split_blank hs, ih]

/-- an item, and then a blank or the end -/
theorem split_tok (hs : Blank sep) {t : Bytes} (ht : Tok t) (rest : Bytes) (hr : rest = [] ∨ rest.head? = some 32) :
    split sep (t ++ rest) = t :: split sep rest := by
  unfold split
  rw [splitAux_tok t (hs.tok ht), List.nil_append]
  rcases hr with rfl | hr
  · rw [splitAux, if_neg ht.1]
    rfl
  · cases rest with
    | nil => simp at hr
    | cons c rest =>
      simp only [List.head?_cons, Option.some.injEq] at hr
      subst hr
      rw [splitAux, if_pos hs.blank, if_neg ht.1, splitAux, if_pos hs.blank, if_pos rfl]

theorem split_sp (hs : Blank sep) (ts : List Bytes) (ht : ∀ t ∈ ts, Tok t) : split sep (sp ts) = ts := by
  induction ts with
  | nil => rfl
  | cons t ts ih =>
    have e : sp (t :: ts) = 32 :: (t ++ sp ts) := rfl
    rw [e, split_blank hs, split_tok hs (ht t (by simp)), ih fun x hx => ht x (by simp [hx])]
    cases ts with
    | nil => exact .inl rfl
    | cons u ts => exact .inr rfl

theorem split_line (hs : Blank sep) {k : Bytes} (hk : Tok k) (ts : List Bytes) (ht : ∀ t ∈ ts, Tok t) : split sep (k ++ sp ts) = k :: ts := by
  rw [split_tok hs hk, split_sp hs ts ht]
  cases ts with
  | nil => exact .inl rfl
  | cons u ts => exact .inr rfl

/-- columns of width 21 -/
theorem split_padr (hs : Blank sep) {t : Bytes} (ht : Tok t) (hl : t.length ≤ 20) (rest : Bytes) :
    split sep (padr t ++ rest) = t :: split sep rest := by
  unfold padr
  rw [List.append_assoc, split_tok hs ht, split_blanks hs]
  right
  obtain ⟨n, hn⟩ : ∃ n, 21 - t.length = n + 1 := ⟨20 - t.length, by omega⟩
  rw [hn, List.replicate_succ]
  rfl

theorem fileLines_line (l : Bytes) (hl : 10 ∉ l) (cur rest : Bytes) : fileLines cur (l ++ 10 :: rest) = (cur ++ l) :: fileLines [] rest := by
  induction l generalizing cur with
  | nil => simp [fileLines]
  | cons c l ih =>
    rw [List.cons_append, fileLines, if_neg (by intro h; exact hl (by simp [h])), ih (fun h => hl (by simp [h]))]
    simp

theorem fileLines_write (ls : List Bytes) (hl : ∀ l ∈ ls, 10 ∉ l) : fileLines [] (ls.flatMap fun l => l ++ [10]) = ls ++ [[]] := by
  induction ls with
  | nil => rfl
  | cons l ls ih =>
    rw [List.flatMap_cons, List.append_assoc, List.cons_append, List.nil_append, fileLines_line l (hl l (by simp)), ih fun x hx => hl x (by simp [hx])]
    simp

theorem fileLines_cons (l : Bytes) (hl : 10 ∉ l) (ls : List Bytes) :
    fileLines [] ((l :: ls).flatMap fun l => l ++ [10]) = l :: fileLines [] (ls.flatMap fun l => l ++ [10]) := by
  rw [List.flatMap_cons, List.append_assoc, List.cons_append, List.nil_append, fileLines_line l hl]
  rfl

/-! ## what can be written -/

/-- the numbers of a header written encrypted can be read: the name they are encrypted with is short, and they are not negative -/
def NumOk (rnd : ℚ → Int) (enc : Bool) (x : ℚ) (len : Nat) : Prop := enc = true → len ≤ 58 ∧ 0 ≤ rnd (x * 1000000)

/-- headers whose file can be read back -/
structure Writable (rnd : ℚ → Int) (h : Header) : Prop where
  head : kVersion.isPrefixOf h.head = true
  headLine : 10 ∉ h.head
  headPlain : h.encrypted = false → saysEncrypted (h.head ++ [32]) = false
  size : h.size.length = 4
  temps : 5 ≤ h.temps.length
  tiles : h.tiles.1 ≤ 100000 ∧ h.tiles.2 ≤ 100000
  layers : ∀ l ∈ h.layers, Tok l.1 ∧ NumOk rnd h.encrypted l.2 l.1.length
  tech : ∀ t ∈ h.tech, Tok t
  metals : ∀ m ∈ h.metals, Tok m.1 ∧ m.1.length ≤ 20 ∧ m.1.head? ≠ some 125 ∧ NumOk rnd h.encrypted m.2.1 m.1.length ∧
    NumOk rnd h.encrypted m.2.2 m.1.length ∧ (fmt rnd m.2.1).length ≤ 20 ∧ (fmt rnd m.2.2).length ≤ 20
  vias : ∀ v ∈ h.vias, Tok v.1 ∧ v.1.length ≤ 20 ∧ v.1.head? ≠ some 125 ∧ Tok v.2.1 ∧ v.2.1.length ≤ 20 ∧ Tok v.2.2 ∧ v.2.2.length ≤ 20
  counts : h.layers.length < 2 ^ 60 ∧ h.tech.length < 2 ^ 60

theorem tok_fmt (rnd : ℚ → Int) (x : ℚ) : Tok (fmt rnd x) :=
  ⟨fmtMicro_ne _, fun c hc => by have := fmtMicro_byte _ c hc; omega⟩

theorem tok_digs (n : Nat) : Tok (digs n) := by
  refine ⟨digs_ne n, fun c hc => ?_⟩
  have := digs_dig n c hc
  simp only [isDig, Bool.and_eq_true, decide_eq_true_eq] at this
  omega

theorem tok_encrypt (rnd : ℚ → Int) (x : ℚ) {len : Nat} (hl : len ≤ 58) : Tok (encrypt (fmt rnd x) len) := by
  refine ⟨by simp [encrypt, fmt, fmtMicro_ne], fun c hc => ?_⟩
  unfold encrypt at hc
  rw [List.mem_map] at hc
  obtain ⟨d, hd, rfl⟩ := hc
  have := fmtMicro_byte _ d hd
  rw [Nat.mod_eq_of_lt (by omega)]
  omega

variable {rnd : ℚ → Int}

theorem tok_num {h : Header} {x : ℚ} {len : Nat} (hn : NumOk rnd h.encrypted x len) : Tok (num rnd h x len) := by
  unfold num
  split
  · next he => exact tok_encrypt rnd x (hn he).1
  · exact tok_fmt rnd x

theorem num_length (h : Header) (x : ℚ) (len : Nat) : (num rnd h x len).length = (fmt rnd x).length := by
  unfold num
  split <;> simp [encrypt]

theorem readNum_num {h : Header} {x : ℚ} {len : Nat} (hn : NumOk rnd h.encrypted x len) :
    readNum h.encrypted (num rnd h x len) len = .ok (r6 rnd x) := by
  unfold readNum num
  by_cases he : h.encrypted = true
  · rw [if_pos he, if_pos he]
    exact c39_number rnd x len (hn he).2
  · rw [if_neg he, if_neg he, stod_fmt]
    rfl

theorem readLayers_write {h : Header} (ls : List (Bytes × ℚ)) (hl : ∀ l ∈ ls, NumOk rnd h.encrypted l.2 l.1.length) :
    readLayers h.encrypted (ls.flatMap fun l => [l.1, num rnd h l.2 l.1.length]) = .ok (ls.map fun l => (l.1, r6 rnd l.2)) := by
  induction ls with
  | nil => rfl
  | cons l ls ih =>
    rw [List.flatMap_cons, List.cons_append, List.cons_append, List.nil_append, readLayers, readNum_num (hl l (by simp)), Res.bind_ok,
      ih fun x hx => hl x (by simp [hx]), Res.bind_ok]
    rfl

theorem stods_fmt (xs : List ℚ) : stods (xs.map (fmt rnd)) = .ok (xs.map (r6 rnd)) := by
  induction xs with
  | nil => rfl
  | cons x xs ih =>
    rw [List.map_cons, stods, stod_fmt, orExn, Res.bind_ok, ih, Res.bind_ok]
    rfl

/-! ## the lines of the file -/

theorem saysEncrypted_mark (a : Bytes) : saysEncrypted (a ++ 32 :: (40 :: kEncrypted ++ [41])) = true := by
  unfold saysEncrypted
  rw [List.any_eq_true]
  refine ⟨kEncrypted ++ [41], ?_, by decide⟩
  rw [List.mem_tails]
  refine ⟨a.map lower ++ [32, 40], ?_⟩
  rw [List.map_append, List.append_assoc]
  congr 1

theorem isPrefixOf_append {k a : Bytes} (h : k.isPrefixOf a = true) (b : Bytes) : k.isPrefixOf (a ++ b) = true := by
  rw [List.isPrefixOf_iff_prefix] at h ⊢
  exact h.trans (List.prefix_append _ _)

theorem step_head {h : Header} (hw : Writable rnd h) (g : Header) (hg : g.encrypted = false) :
    stepTop sep g (h.head ++ 32 :: (if h.encrypted then 40 :: kEncrypted ++ [41] else [])) =
      .ok (some (.top, { g with head := h.head ++ 32 :: (if h.encrypted then 40 :: kEncrypted ++ [41] else []), encrypted := h.encrypted })) := by
  unfold stepTop
  rw [if_neg (by simp), if_pos (isPrefixOf_append hw.head _), hg, Bool.false_or]
  congr 4
  cases he : h.encrypted with
  | true =>
    simp only [if_true]
    exact saysEncrypted_mark _
  | false => exact hw.headPlain he

theorem tok_layers {h : Header} (hw : Writable rnd h) : ∀ t ∈ digs h.layers.length :: h.layers.flatMap (fun l => [l.1, num rnd h l.2 l.1.length]), Tok t := by
  intro t ht
  rw [List.mem_cons, List.mem_flatMap] at ht
  rcases ht with rfl | ⟨l, hl, ht⟩
  · exact tok_digs _
  · simp only [List.mem_cons, List.not_mem_nil, or_false] at ht
    obtain ⟨h1, h2⟩ := hw.layers l hl
    rcases ht with rfl | rfl
    · exact h1
    · exact tok_num h2

theorem tok_fmts (xs : List ℚ) : ∀ t ∈ xs.map (fmt rnd), Tok t := by
  intro t ht
  rw [List.mem_map] at ht
  obtain ⟨x, _, rfl⟩ := ht
  exact tok_fmt rnd x

theorem tok_tech {h : Header} (hw : Writable rnd h) : ∀ t ∈ digs h.tech.length :: h.tech, Tok t := by
  intro t ht
  rw [List.mem_cons] at ht
  rcases ht with rfl | ht
  · exact tok_digs _
  · exact hw.tech t ht

theorem tok_kLayer : Tok kLayer := by unfold Tok; decide
theorem tok_kDie : Tok kDie := by unfold Tok; decide
theorem tok_kDieOrig : Tok kDieOrig := by unfold Tok; decide
theorem tok_kTemp : Tok kTemp := by unfold Tok; decide
theorem tok_kTile : Tok kTile := by unfold Tok; decide
theorem tok_kResolution : Tok kResolution := by unfold Tok; decide
theorem tok_kScale : Tok kScale := by unfold Tok; decide
theorem tok_kAll : Tok kAll := by unfold Tok; decide

theorem step_layers (hs : Blank sep) {h : Header} (hw : Writable rnd h) (g : Header) (hg : g.encrypted = h.encrypted) :
    stepTop sep g (kLayer ++ sp (digs h.layers.length :: h.layers.flatMap fun l => [l.1, num rnd h l.2 l.1.length])) =
      .ok (some (.top, { g with layers := g.layers ++ h.layers.map fun l => (l.1, r6 rnd l.2) })) := by
  have hlen : (h.layers.flatMap fun l => [l.1, num rnd h l.2 l.1.length]).length = 2 * h.layers.length := by
    generalize h.layers = ls
    induction ls with
    | nil => rfl
    | cons l ls ih =>
      simp only [List.flatMap_cons, List.length_append, List.length_cons, List.length_nil, ih]
      omega
  have hc := hw.counts.1
  norm_num only at hc
  unfold stepTop
  rw [if_neg (by simp [kLayer]), if_neg (by simp [kLayer, kVersion]), if_pos (by simp [kLayer]), split_line hs tok_kLayer _ (tok_layers hw)]
  simp only
  rw [stol_digs, orExn, Res.bind_ok, toSize_nat (by norm_num only; omega), hlen, if_neg (by norm_num only; omega), hg, readLayers_write _ fun l hl => (hw.layers l hl).2,
    Res.bind_ok]

theorem step_die (hs : Blank sep) {xs : List ℚ} (hx : xs.length = 4) (g : Header) :
    stepTop sep g (kDie ++ sp (xs.map (fmt rnd))) = .ok (some (.top, { g with size := xs.map (r6 rnd) })) := by
  have hno : kDieOrig.isPrefixOf (kDie ++ sp (xs.map (fmt rnd))) = false := by
    cases xs with
    | nil => simp at hx
    | cons x xs => rfl
  unfold stepTop
  rw [if_neg (by simp [kDie]), if_neg (by simp [kDie, kVersion]), if_neg (by simp [kDie, kLayer]), if_pos (by simp [kDie]), split_line hs tok_kDie _ (tok_fmts _),
    if_neg (by simp [hx]), List.tail_cons, stods_fmt, Res.bind_ok, if_neg (by simp [hno])]

theorem step_dieOrig (hs : Blank sep) {xs : List ℚ} (hx : xs.length = 4) (g : Header) :
    stepTop sep g (kDieOrig ++ sp (xs.map (fmt rnd))) = .ok (some (.top, { g with origin := xs.map (r6 rnd) })) := by
  unfold stepTop
  rw [if_neg (by simp [kDieOrig]), if_neg (by simp [kDieOrig, kVersion]), if_neg (by simp [kDieOrig, kLayer]), if_pos (by simp [kDieOrig, kDie]),
    split_line hs tok_kDieOrig _ (tok_fmts _), if_neg (by simp [hx]), List.tail_cons, stods_fmt, Res.bind_ok, if_pos (by simp [kDieOrig])]

theorem step_temp (hs : Blank sep) {xs : List ℚ} (hx : 5 ≤ xs.length) (g : Header) :
    stepTop sep g (kTemp ++ sp (xs.map (fmt rnd))) = .ok (some (.top, { g with temps := g.temps ++ xs.map (r6 rnd) })) := by
  unfold stepTop
  rw [if_neg (by simp [kTemp]), if_neg (by simp [kTemp, kVersion]), if_neg (by simp [kTemp, kLayer]), if_neg (by simp [kTemp, kDie]), if_pos (by simp [kTemp]),
    split_line hs tok_kTemp _ (tok_fmts _), List.tail_cons, stods_fmt, Res.bind_ok, if_neg (by simp; omega)]

theorem step_tile (hs : Blank sep) {a b : Nat} (ha : a ≤ 100000) (hb : b ≤ 100000) (g : Header) :
    stepTop sep g (kTile ++ sp [digs a, digs b]) = .ok (some (.top, { g with tiles := (a, b) })) := by
  unfold stepTop
  rw [if_neg (by simp [kTile]), if_neg (by simp [kTile, kVersion]), if_neg (by simp [kTile, kLayer]), if_neg (by simp [kTile, kDie]),
    if_neg (by simp [kTile, kTemp]), if_pos (by simp [kTile]), split_line hs tok_kTile _ (by simp [tok_digs])]
  simp only
  rw [stol_digs, orExn, Res.bind_ok, stol_digs, orExn, Res.bind_ok, toSize_nat (by norm_num only; omega), toSize_nat (by norm_num only; omega),
    if_neg (by omega)]

theorem step_resolution (hs : Blank sep) (x : ℚ) (g : Header) :
    stepTop sep g (kResolution ++ sp [fmt rnd x]) = .ok (some (.top, { g with resolution := r6 rnd x })) := by
  unfold stepTop
  rw [if_neg (by simp [kResolution]), if_neg (by simp [kResolution, kVersion]), if_neg (by simp [kResolution, kLayer]), if_neg (by simp [kResolution, kDie]),
    if_neg (by simp [kResolution, kTemp]), if_neg (by simp [kResolution, kTile]), if_pos (by simp [kResolution]), split_line hs tok_kResolution _ (by simp [tok_fmt])]
  simp only
  rw [stod_fmt, orExn, Res.bind_ok]

theorem step_scale (hs : Blank sep) (x : ℚ) (g : Header) :
    stepTop sep g (kScale ++ sp [fmt rnd x]) = .ok (some (.top, { g with scale := r6 rnd x })) := by
  unfold stepTop
  rw [if_neg (by simp [kScale]), if_neg (by simp [kScale, kVersion]), if_neg (by simp [kScale, kLayer]), if_neg (by simp [kScale, kDie]),
    if_neg (by simp [kScale, kTemp]), if_neg (by simp [kScale, kTile]), if_neg (by simp [kScale, kResolution]), if_pos (by simp [kScale]),
    split_line hs tok_kScale _ (by simp [tok_fmt])]
  simp only
  rw [stod_fmt, orExn, Res.bind_ok]

theorem step_all (hs : Blank sep) {h : Header} (hw : Writable rnd h) (g : Header) :
    stepTop sep g (kAll ++ sp (digs h.tech.length :: h.tech)) = .ok (some (.top, { g with tech := g.tech ++ h.tech })) := by
  have hc := hw.counts.2
  norm_num only at hc
  unfold stepTop
  rw [if_neg (by simp [kAll]), if_neg (by simp [kAll, kVersion]), if_neg (by simp [kAll, kLayer]), if_neg (by simp [kAll, kDie]),
    if_neg (by simp [kAll, kTemp]), if_neg (by simp [kAll, kTile]), if_neg (by simp [kAll, kResolution]), if_neg (by simp [kAll, kScale]), if_pos (by simp [kAll]),
    split_line hs tok_kAll _ (tok_tech hw)]
  simp only
  rw [stol_digs, orExn, Res.bind_ok, toSize_nat (by norm_num only; omega), if_neg (by norm_num only; omega)]

/-- the row of three columns -/
theorem row_facts (hs : Blank sep) {a b c : Bytes} (ha : Tok a) (hal : a.length ≤ 20) (hb : Tok b) (hbl : b.length ≤ 20) (hc : Tok c) (hcl : c.length ≤ 20)
    (ha0 : a.head? ≠ some 125) :
    split sep ([32, 32] ++ padr a ++ padr b ++ padr c) = [a, b, c] ∧ (([32, 32] ++ padr a ++ padr b ++ padr c).dropWhile sep).head? ≠ some 125 := by
  constructor
  · have e : [32, 32] ++ padr a ++ padr b ++ padr c = 32 :: 32 :: (padr a ++ (padr b ++ (padr c ++ []))) := by simp
    rw [e, split_blank hs, split_blank hs, split_padr hs ha hal, split_padr hs hb hbl, split_padr hs hc hcl]
    rfl
  · cases a with
    | nil => exact absurd rfl ha.1
    | cons x a =>
      have hx := hs.tok ha x (by simp)
      have e : [32, 32] ++ padr (x :: a) ++ padr b ++ padr c = 32 :: 32 :: x :: (a ++ List.replicate (21 - (x :: a).length) 32 ++ padr b ++ padr c) := by simp [padr]
      rw [e, List.dropWhile_cons_of_pos hs.blank, List.dropWhile_cons_of_pos hs.blank, List.dropWhile_cons_of_neg (by simp [hx])]
      simpa using ha0

theorem step_metal (hs : Blank sep) {h : Header} (hw : Writable rnd h) {m : Bytes × ℚ × ℚ} (hm : m ∈ h.metals) (g : Header) (hg : g.encrypted = h.encrypted) :
    stepMetal sep g (metalRow rnd h m) = .ok (some (.metal, { g with metals := g.metals ++ [(m.1, r6 rnd m.2.1, r6 rnd m.2.2)] })) := by
  obtain ⟨h1, h2, h3, h4, h5, h6, h7⟩ := hw.metals m hm
  obtain ⟨e1, e2⟩ := row_facts hs h1 h2 (tok_num h4) (by rw [num_length]; exact h6) (tok_num h5) (by rw [num_length]; exact h7) h3
  unfold stepMetal metalRow
  rw [if_neg (by simp), if_neg (by simp), if_neg e2, e1]
  simp only
  rw [hg, readNum_num h4, Res.bind_ok, readNum_num h5, Res.bind_ok]

theorem step_via (hs : Blank sep) {h : Header} (hw : Writable rnd h) {v : Bytes × Bytes × Bytes} (hv : v ∈ h.vias) (g : Header) :
    stepVia sep g (viaRow v) = .ok (some (.via, { g with vias := g.vias ++ [v] })) := by
  obtain ⟨h1, h2, h3, h4, h5, h6, h7⟩ := hw.vias v hv
  obtain ⟨e1, e2⟩ := row_facts hs h1 h2 h4 h5 h6 h7 h3
  unfold stepVia viaRow orNone
  rw [if_neg h4.1, if_neg h6.1, if_neg (by simp), if_neg (by simp), if_neg e2, e1]

theorem read_metals (hs : Blank sep) {h : Header} (hw : Writable rnd h) (rest : List Bytes) : ∀ (ms : List (Bytes × ℚ × ℚ)) (g : Header), (∀ m ∈ ms, m ∈ h.metals) →
    g.encrypted = h.encrypted → readLines sep .metal g (ms.map (metalRow rnd h) ++ rest) =
      readLines sep .metal { g with metals := g.metals ++ ms.map fun m => (m.1, r6 rnd m.2.1, r6 rnd m.2.2) } rest := by
  intro ms
  induction ms with
  | nil => intro g _ _; simp
  | cons m ms ih =>
    intro g hm hg
    rw [List.map_cons, List.cons_append, readLines, step, step_metal hs hw (hm m (by simp)) g hg, Res.bind_ok]
    simp only
    rw [ih _ (fun x hx => hm x (by simp [hx])) (by exact hg)]
    simp

theorem read_vias (hs : Blank sep) {h : Header} (hw : Writable rnd h) (rest : List Bytes) : ∀ (vs : List (Bytes × Bytes × Bytes)) (g : Header), (∀ v ∈ vs, v ∈ h.vias) →
    readLines sep .via g (vs.map viaRow ++ rest) = readLines sep .via { g with vias := g.vias ++ vs } rest := by
  intro vs
  induction vs with
  | nil => intro g _; simp
  | cons v vs ih =>
    intro g hv
    rw [List.map_cons, List.cons_append, readLines, step, step_via hs hw (hv v (by simp)) g, Res.bind_ok]
    simp only
    rw [ih _ fun x hx => hv x (by simp [hx])]
    simp

theorem no_lf {t : Bytes} (ht : Tok t) : 10 ∉ t := by
  intro h
  have := ht.2 10 h
  omega

theorem no_lf_line {k : Bytes} (hk : Tok k) {ts : List Bytes} (ht : ∀ t ∈ ts, Tok t) : 10 ∉ k ++ sp ts := by
  rw [List.mem_append]
  rintro (h | h)
  · exact no_lf hk h
  · unfold sp at h
    rw [List.mem_flatMap] at h
    obtain ⟨t, h1, h2⟩ := h
    rw [List.mem_cons] at h2
    rcases h2 with h2 | h2
    · omega
    · exact no_lf (ht t h1) h2

theorem no_lf_padr {t : Bytes} (ht : Tok t) : 10 ∉ padr t := by
  unfold padr
  rw [List.mem_append]
  rintro (h | h)
  · exact no_lf ht h
  · have := List.eq_of_mem_replicate h
    omega

theorem no_lf_row {a b c : Bytes} (ha : Tok a) (hb : Tok b) (hc : Tok c) : 10 ∉ [32, 32] ++ padr a ++ padr b ++ padr c := by
  simp only [List.mem_append, not_or]
  exact ⟨⟨⟨by simp, no_lf_padr ha⟩, no_lf_padr hb⟩, no_lf_padr hc⟩

theorem no_lf_write {h : Header} (hw : Writable rnd h) : ∀ l ∈ writeLines rnd h, 10 ∉ l := by
  intro l hl
  unfold writeLines at hl
  simp only [List.mem_append, List.mem_cons, List.not_mem_nil, or_false, List.mem_map] at hl
  rcases hl with ((((rfl | rfl | rfl | rfl | rfl | rfl | rfl | rfl | rfl | rfl | rfl | rfl) | ⟨m, hm, rfl⟩) | (rfl | rfl | rfl)) | ⟨v, hv, rfl⟩) | rfl
  · rw [List.mem_append, List.mem_cons]
    rintro (h1 | h1 | h1)
    · exact hw.headLine h1
    · omega
    · split at h1
      · revert h1
        decide
      · simp at h1
  · exact no_lf_line tok_kLayer (tok_layers hw)
  · exact no_lf_line tok_kDie (tok_fmts _)
  · exact no_lf_line tok_kTemp (tok_fmts _)
  · exact no_lf_line tok_kTile (by simp [tok_digs])
  · exact no_lf_line tok_kResolution (by simp [tok_fmt])
  · exact no_lf_line tok_kDieOrig (tok_fmts _)
  · exact no_lf_line tok_kScale (by simp [tok_fmt])
  · exact no_lf_line tok_kAll (tok_tech hw)
  · simp
  · decide
  · decide
  · obtain ⟨h1, h2, h3, h4, h5, h6, h7⟩ := hw.metals m hm
    exact no_lf_row h1 (tok_num h4) (tok_num h5)
  · decide
  · decide
  · decide
  · obtain ⟨h1, h2, h3, h4, h5, h6, h7⟩ := hw.vias v hv
    unfold viaRow orNone
    rw [if_neg h4.1, if_neg h6.1]
    exact no_lf_row h1 h4 h6
  · decide

/-- what is read of a header that was written -/
def reread (rnd : ℚ → Int) (h : Header) : Header where
  encrypted := h.encrypted
  head := h.head ++ 32 :: (if h.encrypted then 40 :: kEncrypted ++ [41] else [])
  resolution := r6 rnd h.resolution
  scale := r6 rnd h.scale
  size := h.size.map (r6 rnd)
  origin := h.size.map (r6 rnd)
  tiles := h.tiles
  temps := h.temps.map (r6 rnd)
  layers := h.layers.map fun l => (l.1, r6 rnd l.2)
  tech := h.tech
  vias := h.vias
  metals := h.metals.map fun m => (m.1, r6 rnd m.2.1, r6 rnd m.2.2)

theorem step_blank (g : Header) : stepTop sep g [] = .ok (some (.top, g)) := by
  unfold stepTop
  rw [if_pos (by simp)]

theorem step_openMetal (g : Header) : stepTop sep g (kMetal ++ [32, 123]) = .ok (some (.metal, g)) := by
  unfold stepTop
  rw [if_neg (by decide), if_neg (by decide), if_neg (by decide), if_neg (by decide), if_neg (by decide), if_neg (by decide), if_neg (by decide), if_neg (by decide),
    if_neg (by decide), if_pos (by decide)]

theorem step_openVia (g : Header) : stepTop sep g (kVia ++ [32, 123]) = .ok (some (.via, g)) := by
  unfold stepTop
  rw [if_neg (by decide), if_neg (by decide), if_neg (by decide), if_neg (by decide), if_neg (by decide), if_neg (by decide), if_neg (by decide), if_neg (by decide),
    if_neg (by decide), if_neg (by decide), if_pos (by decide)]

theorem step_comment (g : Header) : stepMetal sep g [35] = .ok (some (.metal, g)) ∧ stepVia sep g [35] = .ok (some (.via, g)) := by
  constructor
  · unfold stepMetal
    rw [if_neg (by decide), if_pos (by decide)]
  · unfold stepVia
    rw [if_neg (by decide), if_pos (by decide)]

theorem readLines_cons {m m' : Mode} {g g' : Header} {l : Bytes} (h : step sep m g l = .ok (some (m', g'))) (ls : List Bytes) :
    readLines sep m g (l :: ls) = readLines sep m' g' ls := by
  rw [readLines, h, Res.bind_ok]

/-- C74: a header written to a file and read back is the same up to six digits, except that the origin becomes the size and that the
first line has the mark appended -/
theorem c74_roundtrip_partial (hs : Blank sep) {h : Header} (hw : Writable rnd h) : read sep (write rnd h) = .ok (some (reread rnd h)) := by
  unfold read write
  rw [fileLines_write _ (no_lf_write hw)]
  unfold writeLines
  simp only [List.append_assoc, List.cons_append, List.nil_append]
  have h125 : sep 125 = false := by
    by_contra h
    have := hs.only 125 (by simpa using h)
    omega
  have hend : ∀ g : Header, stepMetal sep g [125] = .ok (some (.top, g)) ∧ stepVia sep g [125] = .ok (some (.top, g)) := by
    intro g
    constructor
    · unfold stepMetal
      rw [if_neg (by simp), if_neg (by simp), List.dropWhile_cons_of_neg (by simp [h125]), if_pos (by simp)]
    · unfold stepVia
      rw [if_neg (by simp), if_neg (by simp), List.dropWhile_cons_of_neg (by simp [h125]), if_pos (by simp)]
  refine (readLines_cons (m := .top) (step_head hw _ rfl) _).trans ?_
  refine (readLines_cons (m := .top) (step_layers hs hw _ (by rfl)) _).trans ?_
  refine (readLines_cons (m := .top) (step_die hs hw.size _) _).trans ?_
  refine (readLines_cons (m := .top) (step_temp hs hw.temps _) _).trans ?_
  refine (readLines_cons (m := .top) (step_tile hs hw.tiles.1 hw.tiles.2 _) _).trans ?_
  refine (readLines_cons (m := .top) (step_resolution hs _ _) _).trans ?_
  refine (readLines_cons (m := .top) (step_dieOrig hs hw.size _) _).trans ?_
  refine (readLines_cons (m := .top) (step_scale hs _ _) _).trans ?_
  refine (readLines_cons (m := .top) (step_all hs hw _) _).trans ?_
  refine (readLines_cons (m := .top) (step_blank _) _).trans ?_
  refine (readLines_cons (m := .top) (step_openMetal _) _).trans ?_
  refine (readLines_cons (m := .metal) (step_comment _).1 _).trans ?_
  refine (read_metals hs hw _ _ _ (fun m hm => hm) (by rfl)).trans ?_
  refine (readLines_cons (m := .metal) (hend _).1 _).trans ?_
  refine (readLines_cons (m := .top) (step_openVia _) _).trans ?_
  refine (readLines_cons (m := .via) (step_comment _).2 _).trans ?_
  refine (read_vias hs hw _ _ _ (fun m hm => hm)).trans ?_
  refine (readLines_cons (m := .via) (hend _).2 _).trans ?_
  refine (readLines_cons (m := .top) (step_blank _) _).trans ?_
  rfl

/-! ## recognising encrypted files -/

/-- C39: a file written encrypted is recognised if its first line starts with `#Version` -/
theorem c39_recognised (h g : Header) (hh : kVersion.isPrefixOf h.head = true) (he : h.encrypted = true) :
    ∃ g', (writeLines rnd h).head? = some (h.head ++ 32 :: 40 :: kEncrypted ++ [41]) ∧
      stepTop sep g (h.head ++ 32 :: 40 :: kEncrypted ++ [41]) = .ok (some (.top, g')) ∧ g'.encrypted = true := by
  have e : h.head ++ 32 :: 40 :: kEncrypted ++ [41] = h.head ++ 32 :: (40 :: kEncrypted ++ [41]) := by simp
  refine ⟨{ g with head := h.head ++ 32 :: 40 :: kEncrypted ++ [41], encrypted := true }, ?_, ?_, rfl⟩
  · unfold writeLines
    simp [he]
  · unfold stepTop
    rw [if_neg (by simp), e, if_pos (isPrefixOf_append hh _), saysEncrypted_mark, Bool.or_true]

/-- the first byte of an encrypted number is none a number can start with -/
theorem stod_encrypt (x : ℚ) {len : Nat} (h1 : 1 ≤ len) (h2 : len ≤ 58) : stod (encrypt (fmt rnd x) len) = none := by
  have hne : fmt rnd x ≠ [] := fmtMicro_ne _
  cases hf : fmt rnd x with
  | nil => exact absurd hf hne
  | cons d t =>
    have hd := fmtMicro_byte (rnd (x * 1000000)) d (by unfold fmt at hf; rw [hf]; simp)
    have hm : (d + (3 * len + 22)) % 256 = d + (3 * len + 22) := Nat.mod_eq_of_lt (by omega)
    have hdig : isDig (d + (3 * len + 22)) = false := by
      simp only [isDig, Bool.and_eq_false_iff, decide_eq_false_iff_not]
      omega
    unfold encrypt stod
    rw [List.map_cons, hm, List.dropWhile_cons_of_neg (by rw [isSpace_of (by omega)]; simp)]
    split
    · next h => rw [List.cons.injEq] at h; omega
    · next h => rw [List.cons.injEq] at h; omega
    · unfold stodAbs
      rw [List.takeWhile_cons_of_neg (by simp [hdig]), List.dropWhile_cons_of_neg (by simp [hdig])]
      simp only
      rw [if_pos]
      refine ⟨by trivial, ?_⟩
      split
      · next h => rw [List.cons.injEq] at h; omega
      · rfl

/-- C39 fails for the text the first line has by default (and for models made from grid thermal models, which keep it): it does not start
with `#Version`, the file is not recognised as encrypted, and reading its first thickness throws -/
theorem c39_default_refuted (hs : Blank sep) {h : Header} (hd : h.head = defaultHead) (he : h.encrypted = true) {n : Bytes} {x : ℚ}
    {rest : List (Bytes × ℚ)} (hl : h.layers = (n, x) :: rest) (htok : ∀ l ∈ h.layers, Tok l.1 ∧ l.1.length ≤ 58) (hc : h.layers.length < 2 ^ 60) :
    read sep (write rnd h) = .exn := by
  have hlen : (h.layers.flatMap fun l => [l.1, num rnd h l.2 l.1.length]).length = 2 * h.layers.length := by
    generalize h.layers = ls
    induction ls with
    | nil => rfl
    | cons l ls ih =>
      simp only [List.flatMap_cons, List.length_append, List.length_cons, List.length_nil, ih]
      omega
  have htoks : ∀ t ∈ digs h.layers.length :: h.layers.flatMap (fun l => [l.1, num rnd h l.2 l.1.length]), Tok t := by
    intro t ht
    rw [List.mem_cons, List.mem_flatMap] at ht
    rcases ht with rfl | ⟨l, hl, ht⟩
    · exact tok_digs _
    · simp only [List.mem_cons, List.not_mem_nil, or_false] at ht
      obtain ⟨h1, h2⟩ := htok l hl
      rcases ht with rfl | rfl
      · exact h1
      · unfold num
        rw [if_pos he]
        exact tok_encrypt rnd _ h2
  have hn := htok (n, x) (by rw [hl]; simp)
  have hn1 : 1 ≤ n.length := by
    exact List.length_pos_iff.2 hn.1.1
  have hstep1 : stepTop sep {} (defaultHead ++ 32 :: 40 :: (kEncrypted ++ [41])) = .ok (some (.top, {})) := by
    unfold stepTop
    rw [if_neg (by decide), if_neg (by decide), if_neg (by decide), if_neg (by decide), if_neg (by decide), if_neg (by decide), if_neg (by decide), if_neg (by decide),
      if_neg (by decide), if_neg (by decide), if_neg (by decide)]
  norm_num only at hc
  have hstep2 : stepTop sep {} (kLayer ++ sp (digs h.layers.length :: h.layers.flatMap fun l => [l.1, num rnd h l.2 l.1.length])) = .exn := by
    unfold stepTop
    rw [if_neg (by simp [kLayer]), if_neg (by simp [kLayer, kVersion]), if_pos (by simp [kLayer]), split_line hs tok_kLayer _ htoks]
    simp only
    rw [stol_digs, orExn, Res.bind_ok, toSize_nat (by norm_num only; omega), hlen, if_neg (by norm_num only; omega), hl, List.flatMap_cons, List.cons_append,
      List.cons_append, readLayers, readNum, if_neg (by simp), num, if_pos he, stod_encrypt x hn1 hn.2]
    rfl
  obtain ⟨more, hmore⟩ : ∃ more, writeLines rnd h = (h.head ++ 32 :: (if h.encrypted then 40 :: kEncrypted ++ [41] else [])) ::
      (kLayer ++ sp (digs h.layers.length :: h.layers.flatMap fun l => [l.1, num rnd h l.2 l.1.length])) :: more := ⟨_, rfl⟩
  unfold read write
  rw [hmore, fileLines_cons _ (by rw [hd, he]; decide), fileLines_cons _ (no_lf_line tok_kLayer htoks), readLines, step, hd, he, if_pos rfl]
  have e : defaultHead ++ 32 :: (40 :: kEncrypted ++ [41]) = defaultHead ++ 32 :: 40 :: (kEncrypted ++ [41]) := rfl
  rw [e, hstep1, Res.bind_ok]
  simp only
  rw [readLines, step, hstep2]
  rfl

/-- C39 fails for a file that is no longer encrypted: after reading an encrypted file the first line says so, and if the model is
written without encryption the file is taken for encrypted -/
theorem c39_plain_refuted (h g : Header) (hh : kVersion.isPrefixOf h.head = true) (he : h.encrypted = true) :
    ∃ g', (writeLines rnd { reread rnd h with encrypted := false }).head? = some ((reread rnd h).head ++ [32]) ∧
      stepTop sep g ((reread rnd h).head ++ [32]) = .ok (some (.top, g')) ∧ g'.encrypted = true := by
  refine ⟨{ g with head := (reread rnd h).head ++ [32], encrypted := true }, ?_, ?_, rfl⟩
  · unfold writeLines
    simp
  · have hp : kVersion.isPrefixOf ((reread rnd h).head ++ [32]) = true := by
      unfold reread
      exact isPrefixOf_append (isPrefixOf_append hh _) _
    have hsay : saysEncrypted ((reread rnd h).head ++ [32]) = true := by
      unfold reread
      simp only [he, if_true]
      unfold saysEncrypted
      rw [List.any_eq_true]
      refine ⟨kEncrypted ++ [41, 32], ?_, by decide⟩
      rw [List.mem_tails]
      refine ⟨h.head.map lower ++ [32, 40], ?_⟩
      rw [List.map_append, List.map_append, List.append_assoc, List.append_assoc]
      congr 1
    unfold stepTop
    rw [if_neg (by simp), if_pos hp, hsay, Bool.or_true]

/-- C39 fails for long names: with a name of 63 characters the digit 7 is encrypted as a line feed -/
theorem c39_linefeed_refuted (s : Bytes) (h : 55 ∈ s) : 10 ∈ encrypt s 63 := by
  unfold encrypt
  rw [List.mem_map]
  exact ⟨55, h, rfl⟩

/-! ## what is lost -/

/-- C74 fails for the origin: the size is read in its place -/
theorem c74_origin_refuted (hs : Blank sep) {h : Header} (hw : Writable rnd h) (ho : h.origin.map (r6 rnd) ≠ h.size.map (r6 rnd)) :
    ∃ g, read sep (write rnd h) = .ok (some g) ∧ g.origin ≠ h.origin.map (r6 rnd) :=
  ⟨_, c74_roundtrip_partial hs hw, fun h => ho h.symm⟩

/-- C74 fails for metal layers with names of 21 or more characters: name and thickness become one item, and the file is rejected -/
theorem c74_long_refuted (hs : Blank sep) (h g : Header) {m : Bytes × ℚ × ℚ} (hm : Tok m.1) (hl : 21 ≤ m.1.length) (h0 : m.1.head? ≠ some 125)
    (h1 : NumOk rnd h.encrypted m.2.1 m.1.length) (h2 : NumOk rnd h.encrypted m.2.2 m.1.length)
    (h3 : (fmt rnd m.2.1).length ≤ 20) (h4 : (fmt rnd m.2.2).length ≤ 20) : stepMetal sep g (metalRow rnd h m) = .ok none := by
  have ht1 := tok_num h1
  have ht2 := tok_num h2
  have hp : padr m.1 = m.1 := by
    unfold padr
    rw [Nat.sub_eq_zero_of_le hl]
    simp
  have hfuse : Tok (m.1 ++ num rnd h m.2.1 m.1.length) := by
    refine ⟨by simp [hm.1], fun c hc => ?_⟩
    rcases List.mem_append.1 hc with hc | hc
    · exact hm.2 c hc
    · exact ht1.2 c hc
  have hpf : padr (num rnd h m.2.1 m.1.length) = num rnd h m.2.1 m.1.length ++ 32 :: List.replicate (20 - (num rnd h m.2.1 m.1.length).length) 32 := by
    have : (num rnd h m.2.1 m.1.length).length ≤ 20 := by rw [num_length]; exact h3
    unfold padr
    rw [show 21 - (num rnd h m.2.1 m.1.length).length = (20 - (num rnd h m.2.1 m.1.length).length) + 1 by omega, List.replicate_succ]
  have hsplit : split sep (metalRow rnd h m) = [m.1 ++ num rnd h m.2.1 m.1.length, num rnd h m.2.2 m.1.length] := by
    unfold metalRow
    rw [hp, hpf]
    have e : [32, 32] ++ m.1 ++ (num rnd h m.2.1 m.1.length ++ 32 :: List.replicate (20 - (num rnd h m.2.1 m.1.length).length) 32) ++ padr (num rnd h m.2.2 m.1.length) =
        32 :: 32 :: ((m.1 ++ num rnd h m.2.1 m.1.length) ++ 32 :: (List.replicate (20 - (num rnd h m.2.1 m.1.length).length) 32 ++ (padr (num rnd h m.2.2 m.1.length) ++ []))) := by
      simp
    rw [e, split_blank hs, split_blank hs, split_tok hs hfuse _ (.inr rfl), split_blank hs, split_blanks hs, split_padr hs ht2 (by rw [num_length]; exact h4)]
    rfl
  have hd : ((metalRow rnd h m).dropWhile sep).head? ≠ some 125 := by
    unfold metalRow
    rw [hp]
    cases hm1 : m.1 with
    | nil => exact absurd hm1 hm.1
    | cons x a =>
      have hx := hs.tok hm x (by rw [hm1]; simp)
      simp only [List.cons_append, List.nil_append]
      rw [List.dropWhile_cons_of_pos hs.blank, List.dropWhile_cons_of_pos hs.blank, List.dropWhile_cons_of_neg (by simp [hx])]
      rw [hm1] at h0
      simpa using h0
  unfold stepMetal
  rw [if_neg (by simp [metalRow]), if_neg (by simp [metalRow]), if_neg hd, hsplit]

/-- C74 fails for vias without bottom layer: `None` is read as its name -/
theorem c74_none_refuted (hs : Blank sep) (g : Header) {n t : Bytes} (hn : Tok n) (hl : n.length ≤ 20) (h0 : n.head? ≠ some 125) (ht : Tok t) (htl : t.length ≤ 20) :
    stepVia sep g (viaRow (n, [], t)) = .ok (some (.via, { g with vias := g.vias ++ [(n, kNone, t)] })) := by
  obtain ⟨e1, e2⟩ := row_facts hs hn hl (b := kNone) (by unfold Tok; decide) (by decide) ht htl h0
  unfold stepVia viaRow orNone
  rw [if_pos rfl, if_neg ht.1, if_neg (by simp), if_neg (by simp), if_neg e2, e1]

/-! An encrypted header with two layers -/

def exHeader : Header where
  encrypted := true
  head := kVersion ++ [32, 49]
  size := [0, 0, 100, 50]
  origin := [5, 5, 100, 50]
  tiles := (10, 5)
  temps := [25, 50, 75, 100, 125]
  layers := [([77, 49], 3 / 2), ([86, 49], 1 / 4)]
  tech := [[77, 49], [86, 49]]
  vias := [([86, 49], [77, 49], [77, 50])]
  metals := [([77, 49], 3 / 2, 7 / 3)]

def exSep (c : Nat) : Bool := c == 32

example : Blank exSep := ⟨rfl, by intro c h; simp [exSep] at h; omega⟩

example : Writable Rat.floor exHeader where
  head := by decide
  headLine := by decide
  headPlain := by decide
  size := rfl
  temps := by decide
  tiles := by decide
  layers := by unfold Tok NumOk; decide +kernel
  tech := by unfold Tok; decide +kernel
  metals := by unfold Tok NumOk; decide +kernel
  vias := by unfold Tok; decide +kernel
  counts := by decide +kernel

example : read exSep (write Rat.floor exHeader) =
    .ok (some { exHeader with
      head := kVersion ++ [32, 49, 32, 40] ++ kEncrypted ++ [41]
      origin := [0, 0, 100, 50]
      metals := [([77, 49], 3 / 2, 2333333 / 1000000)] }) := by decide +kernel

end Ecad.Ctm
