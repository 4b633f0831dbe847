import Verif.KiCad.ParserModel
import Mathlib.Tactic.Ring
/-!
C46: what the KiCad parser reads.

`Items ts s rest` says that the text `s` begins with the written forms of `ts`, with any white space between them, and goes on
with `rest`.
-/
namespace Ecad.KiCad

/-- the parts of a board: lists with a name, and atoms with or without quotes -/
inductive Sexp where
  | node (name : List Char) (items : List Sexp)
  | bare (text : List Char)
  | quoted (text : List Char)

mutual
/-- names and atoms of a part -/
def Sexp.tree : Sexp → Tree
  | .node name items => .mk name (trees items)
  | .bare t => .mk t []
  | .quoted t => .mk t []

def trees : List Sexp → List Tree
  | [] => []
  | t :: ts => t.tree :: trees ts
end

/-- white space only -/
def Ws (w : List Char) : Prop := ∀ c ∈ w, c = '\t' ∨ c = '\n' ∨ c = '\r' ∨ c = ' '

/-- no white space and no closing parenthesis -/
def Word (b : List Char) : Prop := ∀ c ∈ b, c ≠ '\t' ∧ c ≠ '\n' ∧ c ≠ '\r' ∧ c ≠ ' ' ∧ c ≠ ')'

/-- the text goes on with white space or a closing parenthesis -/
def Sep (s : List Char) : Prop := ∃ c r, s = c :: r ∧ (c = '\t' ∨ c = '\n' ∨ c = '\r' ∨ c = ' ' ∨ c = ')')

/-- a quoted text as in the file: quotes inside come after a backslash, and it does not end with a backslash -/
def Raw (q : List Char) : Prop := (∀ u v, q = u ++ '"' :: v → u.getLast? = some '\\') ∧ q.getLast? ≠ some '\\'

/-- the written forms -/
inductive Items : List Sexp → List Char → List Char → Prop
  | nil (s) : Items [] s s
  | node {w w1 w2 name s1 s2 rest us ts} : Ws w → Ws w1 → Ws w2 → Word name → name ≠ [] → Sep s1 →
      Items us s1 (w2 ++ ')' :: s2) → Items ts s2 rest →
      Items (.node name us :: ts) (w ++ '(' :: (w1 ++ (name ++ s1))) rest
  | bare {w b s1 rest ts} : Ws w → Word b → (∃ c r, b = c :: r ∧ c ≠ '(' ∧ c ≠ '"') → Sep s1 → Items ts s1 rest →
      Items (.bare b :: ts) (w ++ (b ++ s1)) rest
  | quoted {w q s1 rest ts} : Ws w → Raw q → Items ts s1 rest →
      Items (.quoted q :: ts) (w ++ '"' :: (q ++ '"' :: s1)) rest

theorem ws_iff {c : Char} : isWs c = true ↔ c = '\t' ∨ c = '\n' ∨ c = '\r' ∨ c = ' ' := by
  simp [isWs, or_assoc]

theorem end_iff {c : Char} : isEnd c = true ↔ c = '\t' ∨ c = '\n' ∨ c = '\r' ∨ c = ' ' ∨ c = ')' := by
  simp [isEnd, isWs, or_assoc]

theorem readWs_append {w : List Char} (hw : Ws w) (s : List Char) : readWs (w ++ s) = readWs s := by
  induction w with
  | nil => rfl
  | cons c w ih =>
    rw [List.cons_append, readWs, if_pos (ws_iff.2 (hw c (by simp)))]
    exact ih fun d hd => hw d (by simp [hd])

theorem readWs_cons {c : Char} (hc : isWs c = false) (s : List Char) : readWs (c :: s) = c :: s := by
  rw [readWs, if_neg (by simp [hc])]

theorem readString_word (junk : Char) {b : List Char} (hb : Word b) {s : List Char} (hs : Sep s) : ∀ (n : Nat) (acc : List Char),
    b.length + 1 ≤ n → readString junk n acc (b ++ s) = some (acc ++ b, s) := by
  induction b with
  | nil =>
    intro n acc hn
    obtain ⟨c, r, rfl, hc⟩ := hs
    obtain ⟨m, rfl⟩ : ∃ m, n = m + 1 := ⟨n - 1, by simp at hn; omega⟩
    rw [List.nil_append, readString, if_pos (end_iff.2 hc), List.append_nil]
  | cons c b ih =>
    intro n acc hn
    obtain ⟨m, rfl⟩ : ∃ m, n = m + 1 := ⟨n - 1, by simp at hn; omega⟩
    have hc := hb c (by simp)
    rw [List.cons_append, readString, if_neg (by rw [end_iff]; tauto),
      ih (fun d hd => hb d (by simp [hd])) m _ (by simp at hn; omega), List.append_assoc]
    rfl

theorem readQuoted_loop (junk : Char) {s : List Char} : ∀ (q : List Char) (a : Option Char) (n : Nat) (acc : List Char),
    (∀ u v, q ++ ['"'] = u ++ '"' :: v → v ≠ [] → (u = [] ∧ a = some '\\') ∨ u.getLast? = some '\\') →
    (q = [] → a ≠ some '\\') → q.getLast? ≠ some '\\' → q.length + 1 ≤ n →
    readQuotedLoop junk n a acc (q ++ '"' :: s) = some (acc ++ q, '"' :: s) := by
  intro q
  induction q with
  | nil =>
    intro a n acc _ ha _ hn
    obtain ⟨m, rfl⟩ : ∃ m, n = m + 1 := ⟨n - 1, by simp at hn; omega⟩
    rw [List.nil_append, readQuotedLoop, if_pos (by simpa using ha rfl), List.append_nil]
  | cons b q ih =>
    intro a n acc hi ha hl hn
    obtain ⟨m, rfl⟩ : ∃ m, n = m + 1 := ⟨n - 1, by simp at hn; omega⟩
    have hb : ¬ ((b == '"' && a != some '\\') = true) := by
      intro h
      simp only [Bool.and_eq_true, beq_iff_eq, bne_iff_ne, ne_eq] at h
      rcases hi [] (q ++ ['"']) (by simp [h.1]) (by simp) with h' | h'
      · exact h.2 h'.2
      · simp at h'
    rw [List.cons_append, readQuotedLoop, if_neg hb, ih (some b) m _ ?_ ?_ ?_ (by simp at hn; omega), List.append_assoc]
    · rfl
    · intro u v huv hv
      rcases hi (b :: u) v (by simp [huv]) hv with h' | h'
      · exact absurd h'.1 (by simp)
      · cases u with
        | nil => left; simpa using h'
        | cons x u => right; simpa using h'
    · rintro rfl
      simpa using hl
    · cases q with
      | nil => simp
      | cons x q => simpa using hl

theorem readQuoted_raw (junk : Char) {q s : List Char} (hq : Raw q) (n : Nat) (hn : q.length + 1 ≤ n) :
    readQuoted junk n (q ++ '"' :: s) = some (q, '"' :: s) := by
  unfold readQuoted
  have h := readQuoted_loop junk (s := s) q (q ++ '"' :: s).head? n [] ?_ ?_ hq.2 hn
  · simpa using h
  · intro u v huv hv
    right
    obtain ⟨v', c, rfl⟩ := List.eq_nil_or_concat v |>.resolve_left hv
    refine hq.1 u v' ?_
    have : q ++ ['"'] = (u ++ '"' :: v') ++ [c] := by simp [huv]
    exact (List.append_inj_left' this rfl)
  · rintro rfl
    simp

theorem trees_append (ts us : List Sexp) : trees (ts ++ us) = trees ts ++ trees us := by
  induction ts with
  | nil => rfl
  | cons t ts ih => simp [trees, ih]

theorem Items.length {ts s rest} (h : Items ts s rest) : rest.length ≤ s.length := by
  induction h with
  | nil => exact le_refl _
  | node => simp at *; omega
  | bare => simp at *; omega
  | quoted => simp at *; omega

theorem readItems_items (junk : Char) {ts s rest} (h : Items ts s rest) : ∀ (n : Nat) (acc : List Tree), s.length + 2 ≤ n →
    ∃ m, rest.length + 2 ≤ m ∧ readItems junk n acc s = readItems junk m (acc ++ trees ts) rest := by
  induction h with
  | nil s => intro n acc hn; exact ⟨n, hn, by simp [trees]⟩
  | @node w w1 w2 name s1 s2 rest us ts hw hw1 hw2 hname hne hsep hu ht ihu iht =>
    intro n acc hn
    have hul := hu.length
    simp only [List.length_append, List.length_cons] at hn hul
    have hpos := List.length_pos_iff.2 hne
    obtain ⟨k, rfl⟩ : ∃ k, n = k + 2 := ⟨n - 2, by omega⟩
    obtain ⟨c, r, rfl⟩ := List.exists_cons_of_ne_nil hne
    have hc := hname c (by simp)
    have hcw : isWs c = false := by
      rw [Bool.eq_false_iff]; rw [ne_eq, ws_iff]; tauto
    obtain ⟨m, hm, hread⟩ := ihu k [] (by omega)
    simp only [List.length_append, List.length_cons] at hm
    have htree : readTree junk (k + 1) ('(' :: (w1 ++ ((c :: r) ++ s1))) = some (.mk (c :: r) (trees us), s2) := by
      rw [readTree, readUntil, if_pos (by decide), readWs_append hw1, List.cons_append, readWs_cons hcw, ← List.cons_append,
        readString_word junk hname hsep k [] (by omega), Option.bind_some]
      simp only [List.nil_append] at hread ⊢
      rw [hread]
      obtain ⟨m', rfl⟩ : ∃ m', m = m' + 1 := ⟨m - 1, by omega⟩
      rw [readItems, readWs_append hw2, readWs_cons (by decide)]
      simp
    obtain ⟨m2, hm2, hread2⟩ := iht (k + 1) (acc ++ [.mk (c :: r) (trees us)]) (by omega)
    refine ⟨m2, hm2, ?_⟩
    rw [readItems, readWs_append hw, readWs_cons (by decide)]
    simp only
    rw [if_neg (by decide), if_pos (by decide), htree, Option.bind_some, hread2]
    simp [trees, Sexp.tree]
  | @bare w b s1 rest ts hw hb hb1 hsep ht iht =>
    intro n acc hn
    obtain ⟨c, r, rfl, hc1, hc2⟩ := hb1
    simp only [List.length_append, List.length_cons] at hn
    obtain ⟨k, rfl⟩ : ∃ k, n = k + 1 := ⟨n - 1, by omega⟩
    have hc := hb c (by simp)
    have hcw : isWs c = false := by
      rw [Bool.eq_false_iff]; rw [ne_eq, ws_iff]; tauto
    obtain ⟨m2, hm2, hread2⟩ := iht k (acc ++ [.mk (c :: r) []]) (by omega)
    refine ⟨m2, hm2, ?_⟩
    rw [readItems, readWs_append hw, List.cons_append, readWs_cons hcw]
    simp only
    rw [if_neg (by simp only [beq_iff_eq]; tauto), if_neg (by simpa using hc1), if_neg (by simpa using hc2), ← List.cons_append,
      readString_word junk hb hsep k [] (by simp only [List.length_cons]; omega), Option.bind_some]
    simp only [List.nil_append]
    rw [hread2]
    simp [trees, Sexp.tree]
  | @quoted w q s1 rest ts hw hq ht iht =>
    intro n acc hn
    simp only [List.length_append, List.length_cons] at hn
    obtain ⟨k, rfl⟩ : ∃ k, n = k + 1 := ⟨n - 1, by omega⟩
    obtain ⟨m2, hm2, hread2⟩ := iht k (acc ++ [.mk q []]) (by omega)
    refine ⟨m2, hm2, ?_⟩
    rw [readItems, readWs_append hw, readWs_cons (by decide)]
    simp only
    rw [if_neg (by decide), if_neg (by decide), if_pos (by decide), readQuoted_raw junk hq k (by omega), Option.bind_some]
    simp only [List.drop_one, List.tail_cons]
    rw [hread2]
    simp [trees, Sexp.tree]

theorem readUntil_skip {p : List Char} (hp : '(' ∉ p) (s : List Char) : readUntil (p ++ '(' :: s) = s := by
  induction p with
  | nil => rw [List.nil_append, readUntil, if_pos (by decide)]
  | cons c p ih =>
    simp only [List.mem_cons, not_or] at hp
    rw [List.cons_append, readUntil, if_neg (by simpa using Ne.symm hp.1), ih hp.2]

/-- **C46**, reading: a board written with any white space, with or without quotes, after any text without parentheses and
before any other text, is read as the tree of its names and atoms; the fuel needed is bounded by the length. -/
theorem c46_reads (junk : Char) {name : List Char} {us : List Sexp} {pre w1 w2 s1 rest : List Char} (hpre : '(' ∉ pre) (hw1 : Ws w1)
    (hw2 : Ws w2) (hname : Word name) (hne : name ≠ []) (hsep : Sep s1) (hu : Items us s1 (w2 ++ ')' :: rest)) (fuel : Nat)
    (hf : (pre ++ '(' :: (w1 ++ (name ++ s1))).length + 2 ≤ fuel) :
    readTree junk fuel (pre ++ '(' :: (w1 ++ (name ++ s1))) = some ((Sexp.node name us).tree, rest) := by
  simp only [List.length_append, List.length_cons] at hf
  obtain ⟨k, rfl⟩ : ∃ k, fuel = k + 1 := ⟨fuel - 1, by omega⟩
  obtain ⟨c, r, rfl⟩ := List.exists_cons_of_ne_nil hne
  have hc := hname c (by simp)
  have hcw : isWs c = false := by
    rw [Bool.eq_false_iff]; rw [ne_eq, ws_iff]; tauto
  obtain ⟨m, hm, hread⟩ := readItems_items junk hu k [] (by omega)
  rw [readTree, readUntil_skip hpre, readWs_append hw1, List.cons_append, readWs_cons hcw, ← List.cons_append,
    readString_word junk hname hsep k [] (by omega), Option.bind_some]
  simp only [List.nil_append] at hread ⊢
  rw [hread]
  simp only [List.length_append, List.length_cons] at hm
  obtain ⟨m', rfl⟩ : ∃ m', m = m' + 1 := ⟨m - 1, by omega⟩
  rw [readItems, readWs_append hw2, readWs_cons (by decide)]
  simp [Sexp.tree]

/-! ### writing -/

mutual
/-- a plain way to write a part: one space before everything in a list -/
def Sexp.text : Sexp → List Char
  | .node name items => '(' :: (name ++ (texts items ++ [')']))
  | .bare t => t
  | .quoted t => '"' :: (t ++ ['"'])

def texts : List Sexp → List Char
  | [] => []
  | t :: ts => ' ' :: (t.text ++ texts ts)
end

mutual
/-- names and atoms can be written -/
def Sexp.Ok : Sexp → Prop
  | .node name items => Word name ∧ name ≠ [] ∧ Oks items
  | .bare t => Word t ∧ ∃ c r, t = c :: r ∧ c ≠ '(' ∧ c ≠ '"'
  | .quoted t => Raw t

def Oks : List Sexp → Prop
  | [] => True
  | t :: ts => t.Ok ∧ Oks ts
end

theorem ws_space : Ws [' '] := by
  intro c hc
  simp at hc
  simp [hc]

theorem texts_sep (ts : List Sexp) (r : List Char) : Sep (texts ts ++ ')' :: r) := by
  cases ts with
  | nil => exact ⟨')', r, rfl, by simp⟩
  | cons t ts => exact ⟨' ', _, rfl, by simp⟩

mutual
theorem item_cons (t : Sexp) (ts : List Sexp) (h : t.Ok) (r : List Char) (ht : Items ts (texts ts ++ ')' :: r) (')' :: r)) :
    Items (t :: ts) (texts (t :: ts) ++ ')' :: r) (')' :: r) := by
  cases t with
  | node name us =>
    simp only [Sexp.Ok] at h
    have hu := texts_items us h.2.2 (texts ts ++ ')' :: r)
    have := Items.node (w := [' ']) (w1 := []) (w2 := []) ws_space (by intro c hc; simp at hc) (by intro c hc; simp at hc) h.1 h.2.1
      (texts_sep us _) hu ht
    simpa [texts, Sexp.text] using this
  | bare b =>
    simp only [Sexp.Ok] at h
    have := Items.bare (w := [' ']) ws_space h.1 h.2 (texts_sep ts r) ht
    simpa [texts, Sexp.text] using this
  | quoted q =>
    simp only [Sexp.Ok] at h
    have := Items.quoted (w := [' ']) ws_space h ht
    simpa [texts, Sexp.text] using this

theorem texts_items (ts : List Sexp) (h : Oks ts) (r : List Char) : Items ts (texts ts ++ ')' :: r) (')' :: r) := by
  cases ts with
  | nil => exact .nil _
  | cons t ts =>
    simp only [Oks] at h
    exact item_cons t ts h.1 r (texts_items ts h.2 r)
end

/-- **C46**, every tree: what is written is read back. -/
theorem c46_write (junk : Char) (name : List Char) (us : List Sexp) (h : (Sexp.node name us).Ok) :
    ∃ fuel, ∀ n ≥ fuel, readTree junk n (Sexp.node name us).text = some ((Sexp.node name us).tree, []) := by
  refine ⟨(Sexp.node name us).text.length + 2, fun n hn => ?_⟩
  simp only [Sexp.Ok] at h
  have hx := c46_reads (pre := []) (w1 := []) (w2 := []) (rest := []) junk (by simp) (by intro c hc; simp at hc)
    (by intro c hc; simp at hc) h.1 h.2.1 (texts_sep us []) (texts_items us h.2.2 []) n (by simpa [Sexp.text] using hn)
  simpa [Sexp.text] using hx

/-! ### files that are not complete -/

theorem readString_mono (junk : Char) : ∀ (n m : Nat) (acc s : List Char) (x), n ≤ m → readString junk n acc s = some x →
    readString junk m acc s = some x := by
  intro n
  induction n with
  | zero => intro m acc s x _ h; simp [readString] at h
  | succ n ih =>
    intro m acc s x hnm h
    obtain ⟨m, rfl⟩ : ∃ k, m = k + 1 := ⟨m - 1, by omega⟩
    cases s with
    | nil => rw [readString] at h ⊢; exact ih m _ _ x (by omega) h
    | cons c s =>
      rw [readString] at h ⊢
      split
      · rw [if_pos (by assumption)] at h; exact h
      · rw [if_neg (by assumption)] at h; exact ih m _ _ x (by omega) h

theorem readQuotedLoop_mono (junk : Char) : ∀ (n m : Nat) (a) (acc s : List Char) (x), n ≤ m →
    readQuotedLoop junk n a acc s = some x → readQuotedLoop junk m a acc s = some x := by
  intro n
  induction n with
  | zero => intro m a acc s x _ h; simp [readQuotedLoop] at h
  | succ n ih =>
    intro m a acc s x hnm h
    obtain ⟨m, rfl⟩ : ∃ k, m = k + 1 := ⟨m - 1, by omega⟩
    cases s with
    | nil => rw [readQuotedLoop] at h ⊢; exact ih m _ _ _ x (by omega) h
    | cons c s =>
      rw [readQuotedLoop] at h ⊢
      split
      · rw [if_pos (by assumption)] at h; exact h
      · rw [if_neg (by assumption)] at h; exact ih m _ _ _ x (by omega) h

theorem read_mono (junk : Char) : ∀ (n : Nat),
    (∀ m s x, n ≤ m → readTree junk n s = some x → readTree junk m s = some x) ∧
    (∀ m acc s x, n ≤ m → readItems junk n acc s = some x → readItems junk m acc s = some x) := by
  intro n
  induction n with
  | zero => exact ⟨fun m s x _ h => by simp [readTree] at h, fun m acc s x _ h => by simp [readItems] at h⟩
  | succ n ih =>
    constructor
    · intro m s x hnm h
      obtain ⟨m, rfl⟩ : ∃ k, m = k + 1 := ⟨m - 1, by omega⟩
      rw [readTree] at h ⊢
      obtain ⟨name, h1, h2⟩ := Option.bind_eq_some_iff.1 h
      obtain ⟨bs, h3, h4⟩ := Option.bind_eq_some_iff.1 h2
      rw [readString_mono junk n m _ _ _ (by omega) h1, Option.bind_some, ih.2 m _ _ _ (by omega) h3, Option.bind_some, h4]
    · intro m acc s x hnm h
      obtain ⟨m, rfl⟩ : ∃ k, m = k + 1 := ⟨m - 1, by omega⟩
      rw [readItems] at h ⊢
      cases hr : readWs s with
      | nil => rw [hr] at h; exact h
      | cons c r =>
        rw [hr] at h
        simp only at h ⊢
        split
        · rw [if_pos (by assumption)] at h; exact h
        · rw [if_neg (by assumption)] at h
          split
          · rw [if_pos (by assumption)] at h
            obtain ⟨t, h1, h2⟩ := Option.bind_eq_some_iff.1 h
            rw [ih.1 m _ _ (by omega) h1, Option.bind_some, ih.2 m _ _ _ (by omega) h2]
          · rw [if_neg (by assumption)] at h
            split
            · rw [if_pos (by assumption)] at h
              obtain ⟨t, h1, h2⟩ := Option.bind_eq_some_iff.1 h
              unfold readQuoted at h1 ⊢
              rw [readQuotedLoop_mono junk n m _ _ _ _ (by omega) h1, Option.bind_some, ih.2 m _ _ _ (by omega) h2]
            · rw [if_neg (by assumption)] at h
              obtain ⟨t, h1, h2⟩ := Option.bind_eq_some_iff.1 h
              rw [readString_mono junk n m _ _ _ (by omega) h1, Option.bind_some, ih.2 m _ _ _ (by omega) h2]

theorem readString_eof (junk : Char) {b : List Char} (hb : Word b) : ∀ n acc, readString junk n acc b = none := by
  have h0 : ∀ n acc, readString junk n acc [] = none := by
    intro n
    induction n with
    | zero => intro acc; rfl
    | succ n ih => intro acc; rw [readString, ih]
  induction b with
  | nil => exact h0
  | cons c b ih =>
    intro n acc
    cases n with
    | zero => rfl
    | succ n =>
      have hc := hb c (by simp)
      rw [readString, if_neg (by rw [end_iff]; tauto), ih fun d hd => hb d (by simp [hd])]

/-- every quote comes after a backslash -/
def Open (q : List Char) : Prop := ∀ u v, q = u ++ '"' :: v → u.getLast? = some '\\'

theorem readQuotedLoop_eof (junk : Char) : ∀ (q : List Char) (a : Option Char) (n : Nat) (acc : List Char),
    (∀ u v, q = u ++ '"' :: v → (u = [] ∧ a = some '\\') ∨ u.getLast? = some '\\') → readQuotedLoop junk n a acc q = none := by
  intro q
  induction q with
  | nil =>
    intro a n
    induction n generalizing a with
    | zero => intro acc _; rfl
    | succ n ih => intro acc _; rw [readQuotedLoop]; exact ih _ _ (by simp)
  | cons b q ih =>
    intro a n acc hi
    cases n with
    | zero => rfl
    | succ n =>
      have hb : ¬ ((b == '"' && a != some '\\') = true) := by
        intro h
        simp only [Bool.and_eq_true, beq_iff_eq, bne_iff_ne, ne_eq] at h
        rcases hi [] q (by simp [h.1]) with h' | h'
        · exact h.2 h'.2
        · simp at h'
      rw [readQuotedLoop, if_neg hb]
      apply ih
      intro u v huv
      rcases hi (b :: u) v (by simp [huv]) with h' | h'
      · exact absurd h'.1 (by simp)
      · cases u with
        | nil => left; simpa using h'
        | cons x u => right; simpa using h'

/-- texts of boards cut off inside of a name or an atom, at any depth -/
inductive Cut : List Char → Prop
  | name {w b} : Ws w → Word b → Cut ('(' :: (w ++ b))
  | bare {w1 w name s1 us b} : Ws w1 → Ws w → Word name → name ≠ [] → Sep s1 → Items us s1 (w ++ b) → Word b →
      (∃ c r, b = c :: r ∧ c ≠ '(' ∧ c ≠ '"') → Cut ('(' :: (w1 ++ (name ++ s1)))
  | quoted {w1 w name s1 us q} : Ws w1 → Ws w → Word name → name ≠ [] → Sep s1 → Items us s1 (w ++ '"' :: q) → Open q →
      Cut ('(' :: (w1 ++ (name ++ s1)))
  | node {w1 w name s1 us s} : Ws w1 → Ws w → Word name → name ≠ [] → Sep s1 → Items us s1 (w ++ s) → Cut s →
      Cut ('(' :: (w1 ++ (name ++ s1)))

theorem readTree_none (junk : Char) {w1 name s1 us rest pre} (hpre : '(' ∉ pre) (hw1 : Ws w1) (hname : Word name) (hne : name ≠ []) (hsep : Sep s1)
    (hu : Items us s1 rest) (h : ∀ n acc, readItems junk n acc rest = none) (n : Nat) :
    readTree junk n (pre ++ '(' :: (w1 ++ (name ++ s1))) = none := by
  by_contra hx
  obtain ⟨x, hx⟩ := Option.ne_none_iff_exists'.1 hx
  have hx := (read_mono junk n).1 (n + name.length + s1.length + 4) _ _ (by omega) hx
  rw [show n + name.length + s1.length + 4 = (n + name.length + s1.length + 3) + 1 from rfl, readTree, readUntil_skip hpre, readWs_append hw1] at hx
  obtain ⟨c, r, rfl⟩ := List.exists_cons_of_ne_nil hne
  have hc := hname c (by simp)
  have hcw : isWs c = false := by
    rw [Bool.eq_false_iff]; rw [ne_eq, ws_iff]; tauto
  rw [List.cons_append, readWs_cons hcw, ← List.cons_append, readString_word junk hname hsep _ [] (by omega), Option.bind_some] at hx
  obtain ⟨m, _, hread⟩ := readItems_items junk hu (n + (c :: r).length + s1.length + 3) [] (by omega)
  simp only at hx
  rw [hread, h] at hx
  simp at hx

theorem readTree_cut (junk : Char) {s : List Char} (h : Cut s) : (∃ r, s = '(' :: r) ∧ ∀ pre n, '(' ∉ pre → readTree junk n (pre ++ s) = none := by
  induction h with
  | @name w b hw hb =>
    refine ⟨⟨_, rfl⟩, fun pre n hpre => ?_⟩
    cases n with
    | zero => simp [readTree]
    | succ n =>
      rw [readTree, readUntil_skip hpre, readWs_append hw]
      have : readWs b = b := by
        cases b with
        | nil => rfl
        | cons c b =>
          have hc := hb c (by simp)
          exact readWs_cons (by rw [Bool.eq_false_iff, ne_eq, ws_iff]; tauto) b
      rw [this, readString_eof junk hb]
      rfl
  | @bare w1 w name s1 us b hw1 hw hname hne hsep hu hb hb1 =>
    refine ⟨⟨_, rfl⟩, fun pre n hpre => readTree_none junk hpre hw1 hname hne hsep hu ?_ n⟩
    intro n acc
    cases n with
    | zero => simp [readItems]
    | succ n =>
      obtain ⟨c, r, rfl, hc1, hc2⟩ := hb1
      have hc := hb c (by simp)
      rw [readItems, readWs_append hw, readWs_cons (by rw [Bool.eq_false_iff, ne_eq, ws_iff]; tauto)]
      simp only
      rw [if_neg (by simp only [beq_iff_eq]; tauto), if_neg (by simpa using hc1), if_neg (by simpa using hc2), readString_eof junk hb]
      rfl
  | @quoted w1 w name s1 us q hw1 hw hname hne hsep hu hq =>
    refine ⟨⟨_, rfl⟩, fun pre n hpre => readTree_none junk hpre hw1 hname hne hsep hu ?_ n⟩
    intro n acc
    cases n with
    | zero => simp [readItems]
    | succ n =>
      rw [readItems, readWs_append hw, readWs_cons (by decide)]
      simp only
      rw [if_neg (by decide), if_neg (by decide), if_pos (by decide)]
      unfold readQuoted
      rw [readQuotedLoop_eof junk q _ n [] fun u v huv => Or.inr (hq u v huv)]
      rfl
  | @node w1 w name s1 us s hw1 hw hname hne hsep hu hs ih =>
    refine ⟨⟨_, rfl⟩, fun pre n hpre => readTree_none junk hpre hw1 hname hne hsep hu ?_ n⟩
    intro n acc
    cases n with
    | zero => simp [readItems]
    | succ n =>
      obtain ⟨⟨r, rfl⟩, ih⟩ := ih
      have := ih [] n (by simp)
      rw [List.nil_append] at this
      rw [readItems, readWs_append hw, readWs_cons (by decide)]
      simp only
      rw [if_neg (by decide), if_pos (by decide), this]
      rfl

/-- **C46**, negation of "parsing ends for every file": it never ends for a file without opening parenthesis, for instance an empty
one, and for every board that is cut off inside of a name or an atom. -/
theorem c46_endless_refuted (junk : Char) (n : Nat) :
    (∀ s : List Char, '(' ∉ s → readTree junk n s = none) ∧
    (∀ pre s : List Char, '(' ∉ pre → Cut s → readTree junk n (pre ++ s) = none) := by
  constructor
  · intro s hs
    have hu : readUntil s = [] := by
      induction s with
      | nil => rfl
      | cons c s ih =>
        simp only [List.mem_cons, not_or] at hs
        rw [readUntil, if_neg (by simpa using Ne.symm hs.1), ih hs.2]
    cases n with
    | zero => rfl
    | succ n =>
      rw [readTree, hu, readWs, readString_eof junk (by intro c hc; simp at hc)]
      rfl
  · intro pre s hpre hs
    exact (readTree_cut junk hs).2 pre n hpre

/-! ### files for which parsing ends -/

/-- white space, or a text whose last character besides white space is a closing parenthesis -/
def Closed (s : List Char) : Prop := Ws s ∨ ∃ a w, s = a ++ ')' :: w ∧ Ws w

theorem Closed.suffix {x s : List Char} (h : Closed (x ++ s)) : Closed s := by
  rcases h with h | ⟨a, w, he, hw⟩
  · exact Or.inl fun c hc => h c (by simp [hc])
  · rcases List.append_eq_append_iff.1 he with ⟨y, rfl, h2⟩ | ⟨y, rfl, h2⟩
    · exact Or.inr ⟨y, w, h2, hw⟩
    · cases y with
      | nil => exact Or.inr ⟨[], w, by simpa using h2.symm, hw⟩
      | cons c y =>
        simp only [List.cons_append, List.cons.injEq] at h2
        exact Or.inl fun d hd => hw d (by simp [h2.2, hd])

theorem readWs_suffix (s : List Char) : ∃ x, Ws x ∧ s = x ++ readWs s := by
  induction s with
  | nil => exact ⟨[], by intro c hc; simp at hc, rfl⟩
  | cons c s ih =>
    rw [readWs]
    split
    · rename_i hc
      obtain ⟨x, hx, he⟩ := ih
      refine ⟨c :: x, ?_, by rw [List.cons_append, ← he]⟩
      intro d hd
      rcases List.mem_cons.1 hd with rfl | hd
      · exact ws_iff.1 hc
      · exact hx d hd
    · exact ⟨[], by intro c hc; simp at hc, rfl⟩

theorem readWs_head {s : List Char} {c r} (h : readWs s = c :: r) : isWs c = false := by
  induction s with
  | nil => simp [readWs] at h
  | cons d s ih =>
    rw [readWs] at h
    split at h
    · exact ih h
    · rename_i hd
      simp only [List.cons.injEq] at h
      rw [← h.1]
      simpa using hd

theorem split_word {s : List Char} (h : ')' ∈ s) : ∃ b s1, s = b ++ s1 ∧ Word b ∧ Sep s1 := by
  induction s with
  | nil => simp at h
  | cons c s ih =>
    by_cases hc : isEnd c = true
    · exact ⟨[], c :: s, rfl, by intro d hd; simp at hd, c, s, rfl, end_iff.1 hc⟩
    · have hne : c ≠ ')' := by rintro rfl; exact hc (by decide)
      obtain ⟨b, s1, rfl, hb, hs⟩ := ih (by simpa [Ne.symm hne] using h)
      refine ⟨c :: b, s1, rfl, ?_, hs⟩
      intro d hd
      rcases List.mem_cons.1 hd with rfl | hd
      · rw [end_iff] at hc; push Not at hc; exact hc
      · exact hb d hd

theorem Closed.mem {s : List Char} {c r} (h : Closed s) (hs : s = c :: r) (hc : isWs c = false) : ')' ∈ s := by
  rcases h with h | ⟨a, w, rfl, _⟩
  · have := ws_iff.2 (h c (by simp [hs]))
    rw [hc] at this
    exact absurd this (by simp)
  · simp

theorem read_closed (junk : Char) : ∀ (n : Nat),
    (∀ acc s, Closed s → '"' ∉ s → 2 * s.length + 2 ≤ n → ∃ ts x s', s = x ++ s' ∧ readItems junk n acc s = some (ts, s')) ∧
    (∀ pre s, '(' ∉ pre → Closed ('(' :: s) → '"' ∉ s → 2 * s.length + 3 ≤ n →
      ∃ t x s', s = x ++ s' ∧ readTree junk n (pre ++ '(' :: s) = some (t, s')) := by
  intro n
  induction n with
  | zero => exact ⟨fun _ _ _ _ h => by omega, fun _ _ _ _ _ h => by omega⟩
  | succ n ih =>
    constructor
    · intro acc s hcl hq hn
      obtain ⟨x, hx, he⟩ := readWs_suffix s
      rw [readItems]
      have hlen := congrArg List.length he
      rw [List.length_append] at hlen
      cases hr : readWs s with
      | nil => exact ⟨acc, s, [], by simp, rfl⟩
      | cons c r =>
        have hcw := readWs_head hr
        have hcl' : Closed (c :: r) := by rw [← hr]; rw [he] at hcl; exact hcl.suffix
        have hq' : '"' ∉ c :: r := by rw [← hr]; intro hm; exact hq (by rw [he]; simp [hm])
        rw [hr] at he hlen
        simp only [List.length_cons] at hlen
        simp only
        by_cases h1 : c = ')'
        · rw [if_pos (by simp [h1])]
          exact ⟨acc, x ++ [c], r, by simp [he], rfl⟩
        · rw [if_neg (by simpa using h1)]
          by_cases h2 : c = '('
          · subst h2
            rw [if_pos (by decide)]
            obtain ⟨t, y, s', hy, ht⟩ := ih.2 [] r (by simp) hcl' (by simpa using hq') (by omega)
            rw [List.nil_append] at ht
            rw [ht, Option.bind_some]
            have hyl := congrArg List.length hy
            rw [List.length_append] at hyl
            obtain ⟨ts, y2, s2, hy2, ht2⟩ := ih.1 (acc ++ [t]) s' (by rw [hy] at hcl'; exact Closed.suffix (x := '(' :: y) (by simpa using hcl'))
              (by intro hm; exact hq' (by rw [hy]; simp [hm])) (by omega)
            exact ⟨ts, x ++ '(' :: y ++ y2, s2, by rw [he, hy, hy2]; simp, ht2⟩
          · rw [if_neg (by simpa using h2)]
            have h3 : c ≠ '"' := by rintro rfl; simp at hq'
            rw [if_neg (by simpa using h3)]
            obtain ⟨b, s1, hb1, hb, hs1⟩ := split_word (hcl'.mem rfl hcw)
            have hbl := congrArg List.length hb1
            rw [List.length_append, List.length_cons] at hbl
            have hbne : b ≠ [] := by
              rintro rfl
              obtain ⟨d, r', rfl, hd⟩ := hs1
              simp only [List.nil_append, List.cons.injEq] at hb1
              rw [← hb1.1] at hd
              rw [Bool.eq_false_iff, ne_eq, ws_iff] at hcw
              tauto
            have := List.length_pos_iff.2 hbne
            rw [hb1, readString_word junk hb hs1 n [] (by omega), Option.bind_some]
            obtain ⟨ts, y2, s2, hy2, ht2⟩ := ih.1 (acc ++ [.mk b []]) s1 (by rw [hb1] at hcl'; exact hcl'.suffix)
              (by intro hm; exact hq' (by rw [hb1]; simp [hm])) (by omega)
            refine ⟨ts, x ++ b ++ y2, s2, by rw [he, hb1, hy2]; simp, ?_⟩
            simpa using ht2
    · intro pre s hpre hcl hq hn
      rw [readTree, readUntil_skip hpre]
      obtain ⟨x, hx, he⟩ := readWs_suffix s
      have hm : ')' ∈ s := by
        have := hcl.mem rfl (by decide)
        simpa using this
      have hm' : ')' ∈ readWs s := by
        rw [he] at hm
        rcases List.mem_append.1 hm with h | h
        · have := hx _ h; simp at this
        · exact h
      obtain ⟨b, s1, hb1, hb, hs1⟩ := split_word hm'
      have hlen := congrArg List.length he
      have hbl := congrArg List.length hb1
      rw [List.length_append] at hlen hbl
      have hs : s = (x ++ b) ++ s1 := by rw [List.append_assoc, ← hb1, ← he]
      rw [hb1, readString_word junk hb hs1 n [] (by omega), Option.bind_some]
      obtain ⟨ts, y2, s2, hy2, ht2⟩ := ih.1 [] s1 (by rw [hs] at hcl; exact Closed.suffix (x := '(' :: (x ++ b)) (by simpa using hcl))
        (by intro hm; exact hq (by rw [hs]; simp [hm])) (by omega)
      simp only
      rw [ht2]
      exact ⟨_, x ++ b ++ y2, s2, by rw [hs, hy2]; simp, rfl⟩

/-- **C46**, the end of parsing: it ends for every file without quotes whose last character besides white space is a closing
parenthesis, if there is an opening one; parentheses need not match. -/
theorem c46_ends (junk : Char) (a w : List Char) (hq : '"' ∉ a) (hp : '(' ∈ a) (hw : Ws w) :
    ∃ t rest, ∀ fuel ≥ 2 * (a.length + w.length) + 5, readTree junk fuel (a ++ ')' :: w) = some (t, rest) := by
  obtain ⟨pre, b, rfl, hpre⟩ := List.eq_append_cons_of_mem hp
  have hcl : Closed ('(' :: (b ++ ')' :: w)) := Or.inr ⟨'(' :: b, w, by simp, hw⟩
  have hq' : '"' ∉ b ++ ')' :: w := by
    intro hm
    rcases List.mem_append.1 hm with h | h
    · exact hq (by simp [h])
    · rcases List.mem_cons.1 h with h | h
      · exact absurd h (by decide)
      · have := hw _ h; simp at this
  obtain ⟨t, x, s', _, h⟩ := (read_closed junk (2 * (b ++ ')' :: w).length + 3)).2 pre _ hpre hcl hq' (le_refl _)
  refine ⟨t, s', fun fuel hf => ?_⟩
  have := (read_mono junk _).1 fuel _ _ (by simp only [List.length_append, List.length_cons] at hf ⊢; omega) h
  simpa using this

/-! ### quotes and backslashes inside of atoms -/

/-- the form of a text with quotes and backslashes in a KiCad file: both with a backslash before them -/
def escape (q : List Char) : List Char := q.flatMap fun c => if c = '"' ∨ c = '\\' then ['\\', c] else [c]

theorem escape_length (q : List Char) : q.length ≤ (escape q).length ∧ ('"' ∈ q ∨ '\\' ∈ q → q.length < (escape q).length) := by
  induction q with
  | nil => simp
  | cons c q ih =>
    have : escape (c :: q) = (if c = '"' ∨ c = '\\' then ['\\', c] else [c]) ++ escape q := rfl
    rw [this, List.length_append]
    by_cases hc : c = '"' ∨ c = '\\'
    · rw [if_pos hc]
      simp only [List.length_cons, List.length_nil]
      omega
    · rw [if_neg hc]
      push Not at hc
      simp only [List.length_cons, List.length_nil, List.mem_cons, Ne.symm hc.1, Ne.symm hc.2, false_or]
      exact ⟨by omega, fun h => by have := ih.2 h; omega⟩

theorem readQuotedLoop_prefix (junk : Char) : ∀ (n : Nat) (a) (acc s r t : List Char), readQuotedLoop junk n a acc s = some (r, t) →
    ∃ u, r = acc ++ u ∧ s = u ++ t := by
  intro n
  induction n with
  | zero => intro a acc s r t h; simp [readQuotedLoop] at h
  | succ n ih =>
    intro a acc s r t h
    cases s with
    | nil =>
      rw [readQuotedLoop, readQuotedLoop_eof junk [] _ _ _ (by simp)] at h
      simp at h
    | cons c s =>
      rw [readQuotedLoop] at h
      split at h
      · simp only [Option.some.injEq, Prod.mk.injEq] at h
        exact ⟨[], by simp [h.1], by simp [h.2]⟩
      · obtain ⟨u, h1, h2⟩ := ih _ _ _ _ _ h
        exact ⟨c :: u, by simp [h1], by simp [h2]⟩

/-- **C46**, negation for texts with quotes or backslashes: no such text is read back from its form in the file. -/
theorem c46_escape_refuted (junk : Char) (q rest : List Char) (hq : '"' ∈ q ∨ '\\' ∈ q) (fuel : Nat) :
    readQuoted junk fuel (escape q ++ '"' :: rest) ≠ some (q, '"' :: rest) := by
  intro h
  obtain ⟨u, h1, h2⟩ := readQuotedLoop_prefix junk _ _ _ _ _ _ h
  have := congrArg List.length h2
  simp only [List.nil_append] at h1
  rw [← h1, List.length_append, List.length_append] at this
  have := (escape_length q).2 hq
  omega

/-- a board with nested lists, atoms and a quoted text with an escaped quote -/
def exBoard : Sexp :=
  .node "kicad_pcb".toList [.node "net".toList [.bare "1".toList, .quoted "GND (a)".toList], .node "e".toList [], .quoted "x\\\"y".toList]

example : String.ofList exBoard.text = "(kicad_pcb (net 1 \"GND (a)\") (e) \"x\\\"y\")" := by decide +kernel

theorem raw_of (q : List Char) (h : '"' ∉ q) (h2 : '\\' ∉ q) : Raw q :=
  ⟨fun u v huv => absurd (by rw [huv]; simp) h, fun hl => h2 (List.mem_of_getLast? hl)⟩

example : exBoard.Ok := by
  simp only [exBoard, Sexp.Ok, Oks, and_true]
  refine ⟨by unfold Word; decide, by decide, ⟨by unfold Word; decide, by decide, ⟨by unfold Word; decide, '1', [], by decide⟩, ?_⟩,
    ⟨by unfold Word; decide, by decide⟩, ?_⟩
  · exact raw_of _ (by decide) (by decide)
  · refine ⟨?_, by decide⟩
    intro u v huv
    have hx : "x\\\"y".toList = ['x', '\\', '"', 'y'] := by decide
    rw [hx] at huv
    rcases u with _ | ⟨a, _ | ⟨b, _ | ⟨c, _ | ⟨d, u⟩⟩⟩⟩ <;> simp_all
    exact huv.2.symm

/-- a board cut off inside of a quoted text -/
example : Cut "(a \"b".toList := by
  have := Cut.quoted (w1 := []) (w := [' ']) (name := ['a']) (s1 := [' ', '"', 'b']) (us := []) (q := ['b']) (by intro c hc; simp at hc) ws_space
    (by intro c hc; simp at hc; simp [hc]) (by simp) ⟨' ', _, rfl, by simp⟩ (.nil _) ?_
  · exact this
  · intro u v huv
    have : '"' ∈ ['b'] := by rw [huv]; simp
    simp at this

end Ecad.KiCad
