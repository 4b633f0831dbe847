import Verif.Xfl.ParserRoute
/-!
The rules of the grammar for definitions: materials, layers, padstacks, vias, nets and parts.
-/
namespace Ecad.XflP
open Ecad.Xfl

/-! ### characters and texts -/

/-- only letters have other cases -/
theorem toLower_eq {c d : Char} (hd : ¬ ('a' ≤ d ∧ d ≤ 'z')) (h : c.toLower = d) : c = d := by
  unfold Char.toLower at h
  split at h
  · rename_i hu
    exfalso
    apply hd
    have h1 : (65 : UInt32) ≤ c.val := hu.1
    have h2 : c.val ≤ (90 : UInt32) := hu.2
    have h3 : d.val.toNat = (c.val + (97 - 65)).toNat := by rw [← h]; rfl
    rw [UInt32.le_iff_toNat_le] at h1 h2
    rw [UInt32.toNat_add] at h3
    have h5 : ((97 : UInt32) - 65).toNat = 32 := rfl
    rw [h5] at h3
    have h6 : (65 : UInt32).toNat = 65 := rfl
    have h7 : (90 : UInt32).toNat = 90 := rfl
    have h8 : (97 : UInt32).toNat = 97 := rfl
    have h9 : (122 : UInt32).toNat = 122 := rfl
    constructor
    · show (97 : UInt32) ≤ d.val
      rw [UInt32.le_iff_toNat_le]; omega
    · show d.val ≤ (122 : UInt32)
      rw [UInt32.le_iff_toNat_le]; omega
  · exact h

theorem isDigit_lower {c d : Char} (h : c.toLower = d) (hd : d.isDigit = false) : c.isDigit = false := by
  cases hc : c.isDigit with
  | false => rfl
  | true =>
    have : numStart c = true := by simp [numStart, hc]
    rw [numStart_lower this] at h
    subst h; rw [hd] at hc; cases hc

/-- the text is no number -/
def DblFails : Str → Prop := fun t => doubleR t = none
/-- the text is no integer -/
def IntFails : Str → Prop := fun t => intR t = none

theorem failsAt_dbl : FailsAt double_ DblFails := fun _ h => h
theorem failsAt_intF : FailsAt int_ IntFails := fun _ h => h

theorem noNum_int (c : Char) (s : Str) (hc : numStart c = false) : IntFails (c :: s) := by
  have hd : c.isDigit = false := by simp [numStart] at hc; exact hc.1.1.1
  unfold IntFails intR
  simp only [sign_noNum hc, List.takeWhile_cons, hd]
  rfl

theorem noNum_dbl (c : Char) (s : Str) (hc : numStart c = false) : DblFails (c :: s) := by
  have h := failsAt_num (c :: s)
  have hd : c.isDigit = false := by simp [numStart] at hc; exact hc.1.1.1
  have hp : c ≠ '.' := by simp [numStart] at hc; exact hc.2
  have e : frac (c :: s) = (none, c :: s) := by
    unfold frac
    split
    · rename_i heq; exact absurd (List.cons.inj heq).1 hp
    · rfl
  unfold DblFails doubleR
  simp only [sign_noNum hc, List.takeWhile_cons, List.dropWhile_cons, hd]
  simp [e]

/-- a point and no digit: no number -/
theorem dot_dbl (d : Char) (s : Str) (hd : d.isDigit = false) : DblFails ('.' :: d :: s) := by
  unfold DblFails doubleR
  have e : sign ('.' :: d :: s) = (false, '.' :: d :: s) := rfl
  have e2 : '.'.isDigit = false := rfl
  simp [e, List.takeWhile_cons, List.dropWhile_cons, e2, frac, hd]

theorem dot_int (s : Str) : IntFails ('.' :: s) := by
  unfold IntFails intR
  have e : sign ('.' :: s) = (false, '.' :: s) := rfl
  have e2 : '.'.isDigit = false := rfl
  simp [e, List.takeWhile_cons, e2]

/-- texts of words that begin with a point and `e` -/
theorem dotWord {w : String} {w' : Str} (hw : w.toList = '.' :: 'e' :: w') {u : Str} (hu : (Lit.word w).Text u) :
    ∃ d u', u = '.' :: d :: u' ∧ d.toLower = 'e' ∧ u'.map Char.toLower = w'.map Char.toLower := by
  have hu : u.map Char.toLower = w.toList.map Char.toLower := hu
  rw [hw] at hu
  match u, hu with
  | [], hu => cases hu
  | [_], hu => simp at hu
  | c :: d :: u', hu =>
    simp only [List.map_cons, List.cons.injEq] at hu
    have : c = '.' := toLower_eq (by decide) hu.1
    subst this
    exact ⟨d, u', rfl, hu.2.1, hu.2.2⟩

theorem first_end {F : Str → Prop} (w : String) {w' : Str} (hw : w.toList = '.' :: 'e' :: w') (ts : List Tok)
    (h : ∀ d s, d.toLower = 'e' → F ('.' :: d :: s)) : First F (W w :: ts) :=
  ⟨_, ts, rfl, fun u hu _ s => by obtain ⟨d, u', rfl, hd, _⟩ := dotWord hw hu; exact h d _ hd⟩

/-! ### materials and layers -/

/-- Materials as the format has them -/
def WfMat (short : Bool) (m : PMat ℚ) : Prop :=
  Quoted m.name ∧ (m.metal = true → m.permittivity = 0 ∧ m.permeability = 0 ∧ m.loss = 0 ∧ m.causality = 0) ∧
    (m.metal = false → short = true → m.loss = 0 ∧ m.causality = 0)

theorem reads_material (short : Bool) (m : PMat ℚ) (h : WfMat short m) : Reads DblFails material (matToks short m) m := by
  obtain ⟨hq, hm, hs⟩ := h
  obtain ⟨metal, name, c, e, mu, loss, caus⟩ := m
  cases metal with
  | true =>
    obtain ⟨h1, h2, h3, h4⟩ := hm rfl
    simp only at h1 h2 h3 h4 hq
    subst h1 h2 h3 h4
    exact Reads.orL ((reads_kw "C").one ((reads_textDQ name hq).one ((reads_num c).any.last fun _ => rfl) trivial) trivial)
  | false =>
    simp only at hq hs
    have hf : Fails (do kw "C"; let n ← textDQ; let c ← double_; pure (⟨true, n, c, 0, 0, 0, 0⟩ : PMat ℚ)) (matToks short ⟨false, name, c, e, mu, loss, caus⟩) :=
      failsW (w := "D") (by decide) _ _ trivial
    refine Reads.orR hf ?_
    refine (reads_kw "D").one ((reads_textDQ name hq).one ((reads_num c).one ((reads_num e).one ((reads_num mu).one
      (us := if short then [] else [N loss, I caus]) ?_ ?_) trivial) trivial) trivial) trivial
    · cases short with
      | true =>
        obtain ⟨h1, h2⟩ := hs trivial rfl
        subst h1 h2
        exact Reads.last (a := none) (failsAt_dbl.bind _).noOpt fun _ => rfl
      | false =>
        exact Reads.last (a := some (loss, caus)) (Reads.opt (Reads.any ((reads_num loss).one ((reads_int caus).last fun _ => rfl) (by trivial)))) fun _ => rfl
    · cases short <;> trivial

theorem hd_mat (short : Bool) (m : PMat ℚ) : First DblFails (matToks short m) := by
  unfold matToks
  split
  · exact first_word "C" 'C' [] rfl _ fun d hd s => noNum_dbl d s (noNum_word hd (by decide))
  · exact first_word "D" 'D' [] rfl _ fun d hd s => noNum_dbl d s (noNum_word hd (by decide))

/-- Layers as the format has them -/
def WfLay (l : PLay ℚ) : Prop := Quoted l.name ∧ l.type ∈ ['S', 'D', 'P'] ∧ Quoted l.cmat ∧ Quoted l.dmat

theorem reads_layer (l : PLay ℚ) (h : WfLay l) : Reads Any layer (layToks l) l := by
  obtain ⟨h1, h2, h3, h4⟩ := h
  exact (reads_textDQ l.name h1).one ((reads_num l.thick).one ((reads_chr _ l.type (List.contains_iff_mem.2 h2)).one
    ((reads_textDQ l.cmat h3).one ((reads_textDQ l.dmat h4).last fun _ => rfl) trivial) trivial) trivial) trivial

/-! ### lines -/

theorem dropWhile_blanks (n : Nat) (c : Char) (s : Str) (hc : c ≠ ' ') :
    (List.replicate n ' ' ++ c :: s).takeWhile (· == ' ') = List.replicate n ' ' ∧
    (List.replicate n ' ' ++ c :: s).dropWhile (· == ' ') = c :: s := by
  refine takeWhile_head (r := c :: s) (· == ' ') (fun d hd => ?_) (List.replicate n ' ') (fun d hd => ?_)
  · cases hd; simpa using hc
  · simp [List.eq_of_mem_replicate hd]

theorem solid_ne {u : Str} (h : Solid u) (s : Str) : ∃ c u', u ++ s = c :: u' ∧ c ≠ ' ' := by
  obtain ⟨c, u', rfl, hb, _⟩ := h
  exact ⟨c, u' ++ s, rfl, fun e => hb (by rw [e]; simp [Blank])⟩

theorem Reads.sp {β : Type} {F : Str → Prop} {f : Unit → P β} {l : Lit} {us : List Tok} {c : β} (hf : Reads F (f ()) (.raw l :: us) c) :
    Reads F (blanks1 >>= f) (.sp :: .raw l :: us) c := by
  intro b s r hs hr hF
  cases hs with
  | sp _ _ n s hs =>
    have key : blanks1 (List.replicate (n + 1) ' ' ++ s ++ r) = some ((), s ++ r) := by
      rw [List.append_assoc]
      cases hs with
      | raw _ _ _ u s hu ho hs =>
        obtain ⟨d, u', e, hd⟩ := solid_ne ho (s ++ r)
        rw [List.append_assoc, e]
        have := dropWhile_blanks (n + 1) d u' hd
        unfold blanks1 many1
        rw [this.1, this.2]
        rw [if_neg (by simp [List.replicate_succ])]
        rfl
    rw [bind_some key]
    exact hf _ s r hs hr hF

theorem eol_head {e : Str} (he : e = ['\n'] ∨ e = ['\r', '\n']) (s : Str) : ∃ d s', e ++ s = d :: s' ∧ d ≠ ' ' ∧ numStart d = false ∧ isNC d = false := by
  rcases he with rfl | rfl <;> exact ⟨_, _, rfl, by decide, by decide, by decide⟩

theorem reads_eol : Reads Any (do blanks0; eolR) [.eol] () := by
  intro b s r hs _ _
  cases hs with
  | eol _ _ n e s he hs =>
    cases hs
    obtain ⟨d, s', e1, hd, _⟩ := eol_head he r
    have e0 : List.replicate n ' ' ++ (e ++ []) ++ r = List.replicate n ' ' ++ (e ++ r) := by simp
    have key : blanks0 (List.replicate n ' ' ++ (e ++ []) ++ r) = some ((), e ++ r) := by
      rw [e0, e1]
      unfold blanks0
      rw [(dropWhile_blanks n d s' hd).2]
    rw [bind_some key]
    rcases he with rfl | rfl <;> rfl

/-- a further part of a line that is not there -/
theorem fails_eol {β : Type} (f : Unit → P β) (h : ∀ d s, numStart d = false → isNC d = false → f () (d :: s) = none) : Fails (blanks1 >>= f) [.eol] := by
  intro b s r hs _
  cases hs with
  | eol _ _ n e s he hs =>
    cases hs
    obtain ⟨d, s', e1, hd, hn, hc⟩ := eol_head he r
    have e0 : List.replicate n ' ' ++ (e ++ []) ++ r = List.replicate n ' ' ++ (d :: s') := by rw [← e1]; simp
    rw [e0]
    cases n with
    | zero =>
      refine bind_none ?_
      unfold blanks1 many1
      have := dropWhile_blanks 0 d s' hd
      rw [this.1]; rfl
    | succ n =>
      have key : blanks1 (List.replicate (n + 1) ' ' ++ d :: s') = some ((), d :: s') := by
        have := dropWhile_blanks (n + 1) d s' hd
        unfold blanks1 many1
        rw [this.1, this.2, if_neg (by simp [List.replicate_succ])]
        rfl
      rw [bind_some key]
      exact h d s' hn hc

theorem reads_line {β : Type} (a : β) : Reads Any (do blanks0; eolR; pure a : P β) [.eol] a := by
  intro b s r hs hr hF
  have h := reads_eol b s r hs hr hF
  show P.bind blanks0 (fun _ => P.bind eolR fun _ => pure a) (s ++ r) = _
  have h : P.bind blanks0 (fun _ => eolR) (s ++ r) = some ((), r) := h
  unfold P.bind at h ⊢
  cases h1 : blanks0 (s ++ r) with
  | none => rw [h1] at h; cases h
  | some x =>
    rw [h1] at h
    simp only at h ⊢
    rw [h]; rfl

/-! ### padstacks and vias -/

theorem reads_pad (p : PPad ℚ) : Reads Any pad (padToks p) p := by
  obtain ⟨l, i, r, a⟩ := p
  refine reads_lex ((reads_intR l).one (Reads.sp ((reads_intR i).one (Reads.sp ((reads_doubleR r).one ?_ ?_)) trivial)) trivial)
  · cases a with
    | none => exact Reads.noOpt (fails_eol _ fun d s hn _ => bind_none (noNum_int d s hn)) (reads_line _)
    | some a =>
      refine Reads.bind (ts := [.sp, .raw (.int a.1), .sp, .raw (.num a.2)]) (a := some (a.1, a.2)) ?_ (reads_line _) (by trivial)
      exact (Reads.sp ((reads_intR a.1).one (Reads.sp ((reads_doubleR a.2).last fun _ => rfl)) (by trivial))).opt
  · cases a <;> trivial

theorem reads_padstack (p : Int × List (PPad ℚ)) : Reads Any padstack (pstkToks p) p := by
  have hpad : FailsAt pad NoNum := by
    intro s hs
    have : intR (skip s) = none := failsAt_int s hs
    unfold pad lex
    exact bind_none this
  have hh : ∀ x ∈ p.2, First Any (padToks x) := fun x _ => first_any _
  refine (reads_int p.1).one ((reads_lit ['{']).one ?_ (hd_flatMap p.2 (fun x hx => (hh x hx).hd) (Hd.tok _ _)).sp) trivial
  exact Reads.star (val := id) p.2 (fun x hx => ⟨reads_pad x, hh x hx⟩) (hpad.fails (first_str '}' [] [] noNum_close)) (first_any _)
    (by rw [List.map_id]; exact (reads_lit ['}']).last fun _ => rfl)

/-- Vias as the format has them -/
def WfVia (v : PVia ℚ) : Prop := Name v.name ∧ ∀ b, v.barrel = some b → Name b.2

theorem reads_viaD (v : PVia ℚ) (h : WfVia v) : Reads Any via (viaToks v) v := by
  obtain ⟨hn, hb⟩ := h
  obtain ⟨n, p, pr, i, r, b⟩ := v
  refine reads_lex ((reads_many1 n hn).one (Reads.sp ((reads_intR p).one (Reads.sp ((reads_doubleR pr).one (Reads.sp ((reads_intR i).one
    (Reads.sp ((reads_doubleR r).one ?_ ?_)) trivial)) trivial)) trivial)) trivial)
  · cases b with
    | none => exact Reads.noOpt (fails_eol _ fun d s hn _ => bind_none (noNum_dbl d s hn)) (reads_line _)
    | some b =>
      refine Reads.bind (ts := [.sp, .raw (.num b.1), .sp, .raw (.str b.2)]) (a := some (b.1, b.2)) ?_ (reads_line _) (by trivial)
      exact (Reads.sp ((reads_doubleR b.1).one (Reads.sp ((reads_many1 b.2 (hb b rfl)).last fun _ => rfl)) (by trivial))).opt
  · cases b <;> trivial

/-! ### nets -/

/-- Nodes and nets as the format has them -/
def WfNode (n : PNode ℚ) : Prop := Name n.comp ∧ Name n.pin ∧ Ident n.io
def WfNet (n : PNet ℚ) : Prop := Quoted n.name ∧ n.type ∈ ['S', 'P', 'G'] ∧ ∀ x ∈ n.nodes, WfNode x

theorem noNum_open (s : Str) : NoNum ('{' :: s) := by intro d hd; cases hd; rfl

theorem reads_node (x : Option (Int × Int)) (n : PNode ℚ) (h : WfNode n) : Reads Any node (nodeToks x n) n := by
  obtain ⟨h1, h2, h3⟩ := h
  have key : Reads Any (do lit ['{']; let l ← point; let y ← int_; lit ['}']; pure (⟨n.comp, n.pin, n.io, l, y⟩ : PNode ℚ))
      [openB, N n.loc.1, N n.loc.2, I n.lyr, closeB] n :=
    (reads_lit ['{']).one (Reads.pt ((reads_int n.lyr).one ((reads_lit ['}']).last fun _ => rfl) trivial) trivial) trivial
  cases x with
  | none =>
    exact (reads_textNC n.comp h1).one ((reads_textNC n.pin h2).one ((reads_text n.io h3).one (Reads.noOpt
      ((failsAt_int.bind _).fails (first_str '{' [] _ noNum_open)) key) trivial) trivial) trivial
  | some a =>
    have hop : Reads Any (opt (do let a ← int_; let b ← int_; pure (a, b))) [I a.1, I a.2] (some (a.1, a.2)) :=
      ((reads_int a.1).one ((reads_int a.2).last fun _ => rfl) (by trivial)).opt
    exact (reads_textNC n.comp h1).one ((reads_textNC n.pin h2).one ((reads_text n.io h3).one
      (hop.bind key trivial) trivial) trivial) trivial

theorem reads_net (x : Option (Int × Int × Int)) (l : List (Option (Int × Int) × PNode ℚ)) (n : PNet ℚ) (h : WfNet n) (hl : l.map Prod.snd = n.nodes) :
    Reads Any net (netToks x l n) n := by
  obtain ⟨h1, h2, h3⟩ := h
  have hnode : FailsAt node (fun o => ∀ d, o.head? = some d → isNC d = false) := failsAt_textNC.bind _
  have key : Reads Any (do lit ['{']; let m ← star node; lit ['}']; pure (⟨n.name, n.type, n.attr, m⟩ : PNet ℚ))
      (openB :: (l.flatMap (fun y => nodeToks y.1 y.2) ++ [closeB])) n := by
    have hh : ∀ y ∈ l, First Any (nodeToks y.1 y.2) := fun y _ => first_any _
    refine (reads_lit ['{']).one ?_ (hd_flatMap l (fun y hy => (hh y hy).hd) (Hd.tok _ _)).sp
    refine Reads.star (val := Prod.snd) l (fun y hy => ⟨reads_node y.1 y.2 (h3 y.2 (hl ▸ List.mem_map_of_mem hy)), hh y hy⟩)
      (hnode.fails (first_str '}' [] [] (by intro s d hd; cases hd; rfl))) (first_any _) ?_
    rw [hl]
    exact (reads_lit ['}']).last fun _ => rfl
  cases x with
  | none =>
    exact (reads_textDQ n.name h1).one ((reads_chr _ n.type (List.contains_iff_mem.2 h2)).one ((reads_int n.attr).one (Reads.noOpt
      ((failsAt_int.bind _).fails (first_str '{' [] _ noNum_open)) key) trivial) trivial) trivial
  | some a =>
    have hop : Reads Any (opt (do let a ← int_; let b ← int_; let c ← int_; pure (a, b, c))) [I a.1, I a.2.1, I a.2.2] (some (a.1, a.2.1, a.2.2)) :=
      ((reads_int a.1).one ((reads_int a.2.1).one ((reads_int a.2.2).last fun _ => rfl) (by trivial)) (by trivial)).opt
    exact (reads_textDQ n.name h1).one ((reads_chr _ n.type (List.contains_iff_mem.2 h2)).one ((reads_int n.attr).one
      (hop.bind key trivial) trivial) trivial) trivial

/-! ### parts -/

/-- Pins as the format has them -/
def WfPin (short : Bool) (p : PPin ℚ) : Prop := Name p.name ∧ Ident p.io ∧ (short = true → p.pstk = 0 ∧ p.lyr = 0)

theorem reads_pinTail (a b : Int) : Reads Any pinTail [I a, I b] (a, b) := by
  intro e s r hs hr hF
  have e1 : [I a, I b] = [I a] ++ [I b] := rfl
  rw [e1] at hs
  unfold Ends at hr
  rw [e1, after_append] at hr
  obtain ⟨s1, s2, rfl, h1, h2⟩ := hs.split
  have k1 := reads_int a e s1 (s2 ++ r) h1 (h2.ends trivial hr) trivial
  have k2 := reads_int b _ s2 r h2 hr trivial
  unfold pinTail
  rw [List.append_assoc, k1]
  simp only [k2]

theorem reads_noTail : Reads IntFails pinTail [] (0, 0) := by
  intro e s r hs hr hF
  cases hs
  unfold pinTail
  have : int_ r = none := hF
  rw [List.nil_append, this]

theorem reads_pin (short : Bool) (p : PPin ℚ) (h : WfPin short p) : Reads (if short then IntFails else Any) pin (pinToks short p) p := by
  obtain ⟨h1, h2, h3⟩ := h
  obtain ⟨n, i, l, a, b⟩ := p
  refine (reads_textNC n h1).one (Reads.pt ((reads_text i h2).one (us := if short then [] else [I a, I b]) ?_ ?_) trivial) trivial
  · cases short with
    | true =>
      obtain ⟨e1, e2⟩ := h3 rfl
      simp only at e1 e2
      subst e1 e2
      exact reads_noTail.last fun _ => rfl
    | false => exact (reads_pinTail a b).last fun _ => rfl
  · cases short <;> trivial

/-- names that do not begin like an integer -/
def NoInt (t : Str) : Prop := ∀ c, t.head? = some c → c.isDigit = false ∧ c ≠ '-'

/-- After a pin without padstack the name of the next one does not begin like an integer. -/
def PinsOk : List (Bool × PPin ℚ) → Prop
  | [] => True
  | [_] => True
  | a :: b :: l => (a.1 = true → NoInt b.2.name) ∧ PinsOk (b :: l)

theorem name_noPlus {t : Str} (h : Name t) : ∃ c t', t = c :: t' ∧ c ≠ '+' ∧ (isSpace c || c == '#') = false := by
  cases t with
  | nil => exact absurd rfl h.1
  | cons c t =>
    have hc := h.2 c (by simp)
    refine ⟨c, t, rfl, ?_, ?_⟩
    · rintro rfl; revert hc; decide
    · cases hs : (isSpace c || c == '#') with
      | false => rfl
      | true =>
        exfalso
        have : c ∈ ['#', ' ', '\t', '\n', '\x0b', '\x0c', '\r'] := by
          simp only [Bool.or_eq_true, beq_iff_eq] at hs
          rcases hs with hs | rfl
          · exact List.mem_cons_of_mem _ ((isSpace_iff c).1 hs)
          · simp
        have key : ∀ c ∈ ['#', ' ', '\t', '\n', '\x0b', '\x0c', '\r'], ¬ (c.isAlphanum = true ∨ c = '_' ∨ c = '.' ∨ c = '-') := by decide
        exact key c this hc

theorem first_pin (short : Bool) (p : PPin ℚ) (hn : Name p.name) (h : NoInt p.name) (ts : List Tok) : First IntFails (S p.name :: ts) := by
  obtain ⟨c, t, e, hp, _⟩ := name_noPlus hn
  have hc := h c (by rw [e]; rfl)
  rw [e]
  refine first_str c t ts fun s => ?_
  have hsg : sign (c :: s) = (false, c :: s) := by
    unfold sign
    split <;> simp_all
  unfold IntFails intR
  simp [hsg, List.takeWhile_cons, hc.1]

theorem foll_pin (l : List (Bool × PPin ℚ)) (hw : ∀ a ∈ l, WfPin a.1 a.2) (h : PinsOk l) :
    Foll (fun a => if a.1 then IntFails else Any) (fun a => pinToks a.1 a.2) [closeB] l := by
  induction l with
  | nil => trivial
  | cons a l ih =>
    obtain ⟨sh, p⟩ := a
    cases l with
    | nil =>
      refine ⟨first_str '}' [] [] fun s => ?_, trivial⟩
      cases sh with
      | true => exact noNum_int '}' s rfl
      | false => trivial
    | cons b l =>
      refine ⟨?_, ih (fun c hc => hw c (List.mem_cons_of_mem _ hc)) h.2⟩
      cases sh with
      | true => exact (first_pin b.1 b.2 (hw b (by simp)).1 (h.1 rfl) _).app _
      | false => exact first_any _

theorem reads_part (n : Str) (l : List (Bool × PPin ℚ)) (hn : Name n) (hw : ∀ a ∈ l, WfPin a.1 a.2) (h : PinsOk l) :
    Reads Any part (partToks n l) (n, l.map Prod.snd) := by
  have hpin : FailsAt pin (fun o => ∀ d, o.head? = some d → isNC d = false) := failsAt_textNC.bind _
  refine (reads_textNC n hn).one (Reads.noOpt ?_ ((reads_lit ['{']).one ?_ (hd_flatMap l (fun a _ => Hd.tok _ _) (Hd.tok _ _)).sp)) trivial
  · exact ((failsAt_chr _).bind _).fails (first_str '{' [] _ (by intro s d hd; cases hd; rfl))
  · exact Reads.starX (G := fun a => if a.1 then IntFails else Any) (val := Prod.snd) l (fun a ha => ⟨reads_pin a.1 a.2 (hw a ha), Hd.tok _ _⟩)
      (foll_pin l hw h) (Hd.tok _ _) (hpin.fails (first_str '}' [] [] (by intro s d hd; cases hd; rfl))) ((reads_lit ['}']).last fun _ => rfl)

end Ecad.XflP
