import Verif.Xfl.ParserFile
import Mathlib.Data.List.Infix
/-!
Properties C106 (sections) and C107 (files) of XFL files.
-/
namespace Ecad.XflP
open Ecad.Xfl

/-! ### C106 -/

/-- **C106**, for the sections that can be read: every text of such a section calls the handlers with its entries in their order and is taken whole. -/
theorem c106_section_partial (x : PSec) (h : WfSec x) (b : Bool) (s r : Str) (hs : Writes b (secToks x) s) (hr : Ends b (secToks x) r) :
    step (s ++ r) = (secEvs x, some r) := step_sec x h b s r hs hr

/-- **C106, refuted** for template shapes: a diamond is read as a square with its sides along the axes. -/
theorem c106_diamond_refuted (i : Int) (w : ℚ) (b : Bool) (s r : Str) (hs : Writes b (shapeToks (i, .diamond w)) s) (hr : Stop r) :
    shape (s ++ r) = some ((i, .square w), r) := by
  have h : Reads Any shape (shapeToks (i, .diamond w)) (i, .square w) := (reads_int i).one ((reads_diamond w).last fun _ => rfl) trivial
  exact h b s r hs (Or.inr hr) trivial

theorem intText_num {u : Str} {v : Int} (h : IntText u v) : NumText u v := by
  obtain ⟨sg, k, ds, hs, hd, rfl, hv, _⟩ := h
  refine ⟨sg, k, ds, [], [], [], 0, hs, hd.2, .none, by simpa using hd.1, .none, by simp, ?_⟩
  have h0 : Nat.ofDigitChars 10 ([] : List Char) 0 = 0 := rfl
  rw [h0, hv]
  push_cast
  simp

/-- an integer as a name -/
theorem intText_name {u : Str} {v : Int} (h : IntText u v) : u.head? = some '+' ∨ Name u := by
  obtain ⟨sg, k, ds, hs, hd, rfl, _⟩ := h
  have hn : ∀ c ∈ ds, c.isAlphanum = true ∨ c = '_' ∨ c = '.' ∨ c = '-' := fun c hc => Or.inl (by simp [Char.isAlphanum, hd.2 c hc])
  cases hs with
  | none => right; exact ⟨hd.1, hn⟩
  | plus => left; rfl
  | minus =>
    right
    refine ⟨by simp, fun c hc => ?_⟩
    rcases List.mem_append.1 hc with h | h
    · simp at h; subst h; simp
    · exact hn c h

theorem reads_intS (t : Str) (v : Int) (h : IntText t v) : Reads Any int_ [S t] v := by
  refine reads_lex (reads_raw fun u r hu hr => ?_)
  have : u = t := hu
  subst this
  exact intR_text h hr

theorem fails_pinInt (y : Int) (io : Str) (hio : Ident io) (ts : List Tok) : Fails pin (I y :: S io :: ts) := by
  intro b s r hs hr
  cases hs with
  | tok _ _ _ g u s hg hb hu ho hs =>
    rcases intText_name hu with h | h
    · cases u with
      | nil => cases h
      | cons c u =>
        cases h
        refine failsAt_textNC.bind _ _ ?_
        have : skip (g ++ ('+' :: u ++ s) ++ r) = '+' :: u ++ (s ++ r) := by
          rw [List.append_assoc, skip_gap hg, List.append_assoc, skip_solid ho]
        rw [this]
        intro d hd; cases hd; rfl
    · obtain ⟨c, t, rfl, hc, _⟩ := hio
      have hF : Fails pin (S u :: S (c :: t) :: ts) := by
        refine (reads_textNC u h).fails1 ((failsAt_point.bind _).fails (first_str c t ts fun s => ?_)) trivial
        intro d hd
        cases hd
        rcases hc with hc | rfl
        · cases hn : numStart c with
          | false => rfl
          | true =>
            simp only [numStart, Bool.or_eq_true, beq_iff_eq] at hn
            rcases hn with ((hn | rfl) | rfl) | rfl
            · exfalso
              simp only [Char.isAlpha, Char.isUpper, Char.isLower, Char.isDigit, Bool.or_eq_true, Bool.and_eq_true, decide_eq_true_eq,
                ge_iff_le, UInt32.le_iff_toNat_le] at hc hn
              have e1 : ('A' : Char).val.toNat = 65 := rfl
              have e2 : ('a' : Char).val.toNat = 97 := rfl
              have e3 : ('9' : Char).val.toNat = 57 := rfl
              omega
            · cases hc
            · cases hc
            · cases hc
        · rfl
      exact hF b _ r (.tok b (.str u) _ g u s hg hb rfl ho hs) hr

/-- **C106, refuted** for parts: after a pin without padstack, the name of the next pin is taken for the padstack of the first if it is an
integer (as the names of pins mostly are), and its first coordinate for the layer; the part is not read. -/
theorem c106_pin_refuted (n : Str) (hn : Name n) (p : PPin ℚ) (hp : WfPin true p) (nm : Str) (v : Int) (hnm : IntText nm v) (x y : Int)
    (io : Str) (hio : Ident io) (b : Bool) (s r : Str)
    (hs : Writes b (S n :: openB :: (pinToks true p ++ [S nm, I x, I y, S io, closeB])) s) (hr : Stop r) :
    Writes b (partToks n [(true, p), (true, ⟨nm, io, ((x : ℚ), (y : ℚ)), 0, 0⟩)]) s ∧ part (s ++ r) = none := by
  constructor
  · have hI : ∀ (b : Bool) (v : Int) (ts us : List Tok) (s : Str), (∀ b s, Writes b ts s → Writes b us s) → Writes b (I v :: ts) s → Writes b (N v :: us) s := by
      intro b v ts us s h hs
      cases hs with
      | tok _ _ _ g u s hg hb hu ho hs => exact .tok b _ _ g u s hg hb (intText_num hu) ho (h _ _ hs)
    have e1 : S n :: openB :: (pinToks true p ++ [S nm, I x, I y, S io, closeB]) = (S n :: openB :: (pinToks true p ++ [S nm])) ++ [I x, I y, S io, closeB] := by simp
    have e2 : partToks n [(true, p), (true, ⟨nm, io, ((x : ℚ), (y : ℚ)), 0, 0⟩)] =
      (S n :: openB :: (pinToks true p ++ [S nm])) ++ [N x, N y, S io, closeB] := by simp [partToks, pinToks]
    rw [e1] at hs
    rw [e2]
    obtain ⟨s1, s2, rfl, h1, h2⟩ := hs.split
    exact h1.append (hI _ x _ _ _ (fun b s => hI b y _ _ s fun _ _ h => h) h2)
  · obtain ⟨h1, h2, h3⟩ := hp
    have hpin : Reads Any pin (pinToks true p ++ [S nm, I x]) ⟨p.name, p.io, p.loc, v, x⟩ := by
      have htail : Reads Any pinTail [S nm, I x] (v, x) := by
        intro e s r hs hr hF
        have e1 : [S nm, I x] = [S nm] ++ [I x] := rfl
        rw [e1] at hs
        unfold Ends at hr
        rw [e1, after_append] at hr
        obtain ⟨s1, s2, rfl, h1, h2⟩ := hs.split
        have k1 := reads_intS nm v hnm e s1 (s2 ++ r) h1 (h2.ends trivial hr) trivial
        have k2 := reads_int x _ s2 r h2 hr trivial
        unfold pinTail
        rw [List.append_assoc, k1]
        simp only [k2]
      exact (reads_textNC p.name h1).one (Reads.pt ((reads_text p.io h2).one (htail.last fun _ => rfl) trivial) trivial) trivial
    have hF : Fails part (S n :: openB :: (pinToks true p ++ [S nm, I x, I y, S io, closeB])) := by
      refine (reads_textNC n hn).fails1 ?_ trivial
      intro b s r hs hr
      have ho : opt partTail (s ++ r) = some (none, s ++ r) := by
        have : Fails partTail (openB :: (pinToks true p ++ [S nm, I x, I y, S io, closeB])) :=
          ((failsAt_chr _).bind _).fails (first_str '{' [] _ (by intro s d hd; cases hd; rfl))
        unfold opt
        rw [this b s r hs hr]
      rw [bind_some ho]
      refine (reads_lit ['{']).fails1 (f := fun _ => do let l ← star pin; lit ['}']; pure (n, l)) ?_ (by trivial) b s r hs hr
      have e : pinToks true p ++ [S nm, I x, I y, S io, closeB] = [()].flatMap (fun _ => pinToks true p ++ [S nm, I x]) ++ [I y, S io, closeB] := by simp
      rw [e]
      refine Fails.starX (G := fun _ => Any) (val := fun _ => ⟨p.name, p.io, p.loc, v, x⟩) [()] (fun _ _ => ⟨hpin, Hd.tok _ _⟩) ⟨first_any _, trivial⟩
        (Hd.tok _ _) (fails_pinInt y io hio _) ?_
      refine Fails.bind ((failsAt_lit []).fails (first_int y _ fun c hc s h => ?_)) _
      cases h; revert hc; decide
    exact hF b s r hs (Or.inr hr)

/-! ### C107 -/

theorem Gap.stopAll {g : Str} (h : Gap g) : Stop g := by
  cases h with
  | nil => exact Or.inl rfl
  | blank c s hc _ => exact Or.inr ⟨c, s, rfl, Or.inl hc⟩
  | comment t c s ht hc _ => exact Or.inr ⟨'#', t ++ c :: s, rfl, Or.inr rfl⟩

theorem hd_sec (x : PSec) : Hd (secToks x) := by cases x <;> exact Hd.tok _ _

theorem stepsN_reads (F : List PSec) (h : ∀ x ∈ F, WfSec x) (b : Bool) (s r : Str) (hs : Writes b (F.flatMap secToks) s)
    (hr : Ends b (F.flatMap secToks) r) (n : Nat) :
    stepsN (F.length + n) (s ++ r) = (F.flatMap secEvs ++ (stepsN n r).1, (stepsN n r).2) := by
  induction F generalizing b s with
  | nil => cases hs; simp
  | cons x F ih =>
    rw [List.flatMap_cons] at hs
    unfold Ends at hr
    rw [List.flatMap_cons, after_append] at hr
    obtain ⟨s1, s2, rfl, h1, h2⟩ := hs.split
    have hsp : Sp (F.flatMap secToks) := by
      cases F with
      | nil => trivial
      | cons y F => rw [List.flatMap_cons]; exact ((hd_sec y).app _).sp
    have e1 := step_sec x (h x (by simp)) b s1 (s2 ++ r) h1 (h2.ends hsp hr)
    have e2 := ih (fun y hy => h y (List.mem_cons_of_mem _ hy)) _ s2 h2 hr
    have e3 : (x :: F).length + n = (F.length + n) + 1 := by simp only [List.length_cons]; omega
    rw [e3, List.append_assoc]
    conv_lhs => unfold stepsN
    rw [e1]
    simp only [e2, List.flatMap_cons, List.append_assoc]

theorem len_secs (F : List PSec) (b : Bool) (s : Str) (hs : Writes b (F.flatMap secToks) s) : F.length ≤ s.length :=
  hs.length_le F fun x _ => hd_sec x

/-- nothing to take -/
theorem step_dead (s : Str) (h : (skip s).head? ≠ some '.') (ht : textEOL s = none) : step s = ([], none) := by
  have hkw : ∀ (w : String) (w' : Str), w.toList = '.' :: w' → kw w s = none := by
    intro w w' hw
    refine failsAt_kw w hw s fun d hd hc => ?_
    have : d = '.' := toLower_eq (by decide) (hc.symm.trans rfl)
    exact h (by rw [hd, this])
  have hun : unknownSection s = none := by
    have : startTag s = none := by unfold startTag; exact bind_none (failsAt_lit [] s h)
    unfold unknownSection
    rw [this]
  have hall : ∀ ps : List Sec, (∀ p ∈ ps, p s = ([], none)) → secAlts ps s = ([], none) := by
    intro ps
    induction ps with
    | nil => intro _; rfl
    | cons p ps ih =>
      intro hp
      unfold secAlts
      rw [hp p (by simp)]
      simp only [ih (fun q hq => hp q (List.mem_cons_of_mem _ hq)), List.nil_append]
  have hst : ∀ (w : String) (w' : Str) (p : P (Ev ℚ)) (c : String), w.toList = '.' :: w' → secStar w p c s = ([], none) := by
    intro w w' p c hw
    unfold secStar
    rw [hkw w w' hw]
  have hsk : ∀ (w : String) (w' : Str) (c : String), w.toList = '.' :: w' → secSkip w c s = ([], none) := by
    intro w w' c hw
    unfold secSkip
    rw [hkw w w' hw]
  refine hall _ ?_
  intro p hp
  simp only [sections, List.mem_append, List.mem_cons, List.not_mem_nil, or_false] at hp
  rcases hp with (rfl | rfl | rfl | rfl | rfl | rfl | rfl | rfl | rfl | rfl | rfl | rfl | rfl) | rfl | rfl
  · have : others s = none := by
      have hb : ∀ (w : String) (w' : Str) (f : Unit → P (Ev ℚ)), w.toList = '.' :: w' → (kw w >>= f) s = none := fun w w' f hw => bind_none (hkw w w' hw)
      have ha : ∀ ps : List (P (Ev ℚ)), (∀ p ∈ ps, p s = none) → alts ps s = none := by
        intro ps
        induction ps with
        | nil => intro _; rfl
        | cons p ps ih =>
          intro hp
          show P.or p (alts ps) s = none
          unfold P.or
          rw [hp p (by simp)]
          exact ih (fun q hq => hp q (List.mem_cons_of_mem _ hq))
      refine ha _ ?_
      intro p hp
      simp only [List.mem_cons, List.not_mem_nil, or_false] at hp
      rcases hp with rfl | rfl | rfl | rfl <;> exact hb _ _ _ rfl
    unfold one
    rw [this]
  · exact hst _ _ _ _ rfl
  · exact hsk _ _ _ rfl
  · exact hst _ _ _ _ rfl
  · exact hst _ _ _ _ rfl
  · unfold boardSection
    rw [hkw _ _ rfl]
  · exact hst _ _ _ _ rfl
  · exact hst _ _ _ _ rfl
  · exact hst _ _ _ _ rfl
  · exact hsk _ _ _ rfl
  · exact hsk _ _ _ rfl
  · exact hst _ _ _ _ rfl
  · exact hst _ _ _ _ rfl
  · dsimp only; rw [hun]; rfl
  · dsimp only; rw [ht]; rfl

theorem skip_gapEnd {g : Str} (h : Gap g) : skip g = [] := by
  have := skip_gap h []
  rw [List.append_nil] at this
  exact this

theorem stepsN_gap {g : Str} (h : Gap g) (n : Nat) : stepsN (n + 1) g = ([], g) := by
  have hd : step g = ([], none) := by
    refine step_dead g ?_ ?_
    · rw [skip_gapEnd h]; simp
    · unfold textEOL lex
      rw [skip_gapEnd h]; rfl
  unfold stepsN
  rw [hd]

/-- **C107**, for files that can be read: a file of sections in any order, with blanks and comments between them and at the end, calls the handlers
with all entries in their order, and is accepted. -/
theorem c107_file_partial (F : List PSec) (h : ∀ x ∈ F, WfSec x) (s g : Str) (hs : Writes true (F.flatMap secToks) s) (hg : Gap g) :
    read (s ++ g) = (F.flatMap secEvs, true) := by
  have hl := len_secs F true s hs
  have hr : Ends true (F.flatMap secToks) g := Or.inr hg.stopAll
  obtain ⟨m, hm⟩ : ∃ m, (s ++ g).length + 1 = F.length + (m + 1) := ⟨(s ++ g).length - F.length, by simp only [List.length_append]; omega⟩
  have e := stepsN_reads F h true s g hs hr (m + 1)
  unfold read
  rw [hm, e, stepsN_gap hg, skip_gapEnd hg]
  simp

/-- **C107, refuted**: every text that ends with a line is accepted, whatever is in it. -/
theorem c107_accepts_refuted (s : Str) : (read (s ++ ['\n'])).2 = true := by
  have := stepsN_all ((s ++ ['\n']).length + 1) (s ++ ['\n']) (fun c hc => by
    rw [List.getLast?_append] at hc
    cases hc; rfl) (by omega)
  unfold read
  rw [this]
  rfl

/-- **C107, refuted**: a file whose last line is a comment without an end of line is not accepted, after everything has been read. -/
theorem c107_comment_refuted (F : List PSec) (h : ∀ x ∈ F, WfSec x) (s g t : Str) (hs : Writes true (F.flatMap secToks) s) (hg : Gap g)
    (ht : ∀ c ∈ t, c ≠ '\n' ∧ c ≠ '\r') : read (s ++ (g ++ '#' :: t)) = (F.flatMap secEvs, false) := by
  have hl := len_secs F true s hs
  have hstop : Stop (g ++ '#' :: t) := by
    by_cases h0 : g = []
    · subst h0; exact Or.inr ⟨'#', t, rfl, Or.inr rfl⟩
    · exact hg.stop h0 _
  obtain ⟨m, hm⟩ : ∃ m, (s ++ (g ++ '#' :: t)).length + 1 = F.length + (m + 1) :=
    ⟨(s ++ (g ++ '#' :: t)).length - F.length, by simp only [List.length_append]; omega⟩
  have e := stepsN_reads F h true s _ hs (Or.inr hstop) (m + 1)
  have hne : ∀ c ∈ t, isEol c = false := fun c hc => by simp [isEol, (ht c hc).1, (ht c hc).2]
  have hany : t.any isEol = false := by
    rw [List.any_eq_false]
    intro c hc
    simp [hne c hc]
  have hsk : skip (g ++ '#' :: t) = '#' :: t := by
    rw [skip_gap hg]
    unfold skip skipIn
    rw [hany]
    rfl
  have hd : step (g ++ '#' :: t) = ([], none) := by
    refine step_dead _ ?_ ?_
    · rw [hsk]; simp
    · unfold textEOL lex
      rw [hsk]
      dsimp only
      have hdw : ('#' :: t).dropWhile (fun c => !isEol c) = [] := by
        rw [List.dropWhile_eq_nil_iff]
        intro c hc
        rcases List.mem_cons.1 hc with rfl | hc
        · rfl
        · simp [hne c hc]
      rw [hdw]
      split <;> rfl
  have e2 : stepsN (m + 1) (g ++ '#' :: t) = ([], g ++ '#' :: t) := by
    unfold stepsN
    rw [hd]
  unfold read
  rw [hm, e, e2, hsk]
  simp

/-! ### routes that are lost -/

theorem strip_prefix (k a r x : Str) (hl : k.length ≤ a.length) (h : strip Char.toLower k (a ++ r) = some x) : k.map Char.toLower <+: a.map Char.toLower := by
  induction k generalizing a with
  | nil => exact List.nil_prefix
  | cons c k ih =>
    cases a with
    | nil => simp at hl
    | cons d a =>
      simp only [List.cons_append, strip] at h
      split at h
      · rename_i hc
        rw [List.map_cons, List.map_cons, hc]
        exact List.cons_prefix_cons.2 ⟨rfl, ih a (by simpa using hl) h⟩
      · cases h

/-- blanks before the first character that is none -/
theorem blanks_split (x : Str) (hh : '#' ∉ x) : Gap x ∨ ∃ g c x', x = g ++ c :: x' ∧ Gap g ∧ ¬ Blank c ∧ c ≠ '#' := by
  induction x with
  | nil => exact Or.inl .nil
  | cons c x ih =>
    have hc : c ≠ '#' := fun e => hh (by rw [e]; simp)
    by_cases hb : Blank c
    · rcases ih (fun h => hh (List.mem_cons_of_mem _ h)) with h | ⟨g, d, x', rfl, h1, h2⟩
      · exact Or.inl (.blank c x hb h)
      · exact Or.inr ⟨c :: g, d, x', rfl, .blank c g hb h1, h2⟩
    · exact Or.inr ⟨[], c, x, rfl, .nil, hb, hc⟩

theorem untilN_end (e : Str) (he : e = ".end route".toList) (r : Str) (n : Nat) (x : Str) (hn : x.length < n) (hh : '#' ∉ x)
    (hx : ∀ p v, x = p ++ v → v ≠ [] → ¬ ".end".toList <+: (v ++ e).map Char.toLower) :
    ∃ y, Gap y ∧ untilN (kw ".end") n (x ++ (e ++ r)) = y ++ (e ++ r) := by
  have hse : Solid e := by rw [he]; exact ⟨'.', _, rfl, by simp [Blank], by decide⟩
  induction n generalizing x with
  | zero => omega
  | succ n ih =>
    rcases blanks_split x hh with hg | ⟨g, c, x', rfl, hg, hb, hc⟩
    · refine ⟨x, hg, ?_⟩
      have hk : kw ".end" (x ++ (e ++ r)) = some ((), " route".toList ++ r) := by
        unfold kw
        refine (lex_tok _ hg hse r).trans ?_
        rw [he]
        rfl
      unfold untilN
      rw [hk]
    · have hso : Solid (c :: x') := ⟨c, x', rfl, hb, hc⟩
      have hsk : skip (g ++ c :: x' ++ (e ++ r)) = c :: x' ++ (e ++ r) := by rw [List.append_assoc, skip_gap hg, skip_solid hso]
      have hk : kw ".end" (g ++ c :: x' ++ (e ++ r)) = none := by
        unfold kw lex
        rw [hsk]
        dsimp only
        cases hz : strip Char.toLower ".end".toList (c :: x' ++ (e ++ r)) with
        | none => rfl
        | some z =>
          exfalso
          rw [← List.append_assoc] at hz
          refine hx g (c :: x') rfl (by simp) (strip_prefix _ _ _ _ ?_ hz)
          have e1 : ".end".toList.length = 4 := rfl
          have e2 : e.length = 10 := by rw [he]; rfl
          rw [List.length_append]
          omega
      obtain ⟨y, hy, ey⟩ := ih x' (by simp only [List.length_append, List.length_cons] at hn; omega) (fun h => hh (by simp [h]))
        (fun p v e hv => hx (g ++ c :: p) v (by rw [e]; simp) hv)
      refine ⟨y, hy, ?_⟩
      unfold untilN
      rw [hk]
      simp only [hsk, List.cons_append]
      exact ey

/-- `.end` is in the text at its end only. -/
def OnlyEnd (s : Str) : Prop := ∀ p q, s = p ++ q → ".end".toList <+: q.map Char.toLower → q = ".end route".toList

/-- a section of routes with its tags as written mostly -/
def routesToks (l : List (Str × List (Extra × PObj ℚ))) : List Tok :=
  S ".route".toList :: (l.flatMap (fun x => routeToks x.1 x.2) ++ [S ".end route".toList])

theorem writes_word {w : String} {ts : List Tok} {b : Bool} {s : Str} (h : Writes b (S w.toList :: ts) s) : Writes b (W w :: ts) s := by
  cases h with
  | tok _ _ _ g u s hg hb hu ho hs =>
    have hu : u = w.toList := hu
    exact .tok b (.word w) ts g u s hg hb (by subst hu; rfl) ho hs

theorem routes_words {l : List (Str × List (Extra × PObj ℚ))} {b : Bool} {s : Str} (h : Writes b (routesToks l) s) : Writes b (secToks (.route l)) s := by
  have h := writes_word (w := ".route") h
  have e : W ".route" :: (l.flatMap (fun x => routeToks x.1 x.2) ++ [S ".end route".toList]) =
    (W ".route" :: l.flatMap (fun x => routeToks x.1 x.2)) ++ [S ".end route".toList] := rfl
  rw [e] at h
  obtain ⟨s1, s2, rfl, h1, h2⟩ := h.split
  exact h1.append (writes_word (w := ".end route") h2)

theorem unknown_route (l : List (Str × List (Extra × PObj ℚ))) (b : Bool) (s r : Str) (hs : Writes b (routesToks l) s) (hh : '#' ∉ s) (he : OnlyEnd s)
    (hr : Stop r) : unknownSection (s ++ r) = some ((), r) := by
  have hd := hd_flatMap (toks := fun x => routeToks x.1 x.2) (us := [S ".end route".toList]) l (fun x _ => Hd.tok _ _) (Hd.tok _ _)
  cases hs with
  | tok _ _ _ g u s hg hb hu ho hs =>
    have hu : u = ".route".toList := hu
    have hst : Stop (s ++ r) := (hs.ends hd.sp (Or.inr hr)).resolve_left (by simp)
    have hs2 := hs
    obtain ⟨s1, s2, rfl, h1, h2⟩ := hs2.split
    cases h2 with
    | tok _ _ _ g2 u2 s2 hg2 hb2 hu2 ho2 h2 =>
      cases h2
      have hu2 : u2 = ".end route".toList := hu2
      have e0 : g ++ (u ++ (s1 ++ (g2 ++ (u2 ++ [])))) ++ r = g ++ (u ++ ((s1 ++ g2) ++ (u2 ++ r))) := by simp
      have e9 : (s1 ++ (g2 ++ (u2 ++ []))) ++ r = (s1 ++ g2) ++ (u2 ++ r) := by simp
      rw [e9] at hst
      rw [e0]
      have k1 : lit ['.'] (g ++ (u ++ ((s1 ++ g2) ++ (u2 ++ r)))) = some ((), "route".toList ++ ((s1 ++ g2) ++ (u2 ++ r))) := by
        unfold lit
        refine (lex_tok _ hg ho _).trans ?_
        rw [hu]
        rfl
      have so : Solid "route".toList := ⟨'r', _, rfl, by simp [Blank], by decide⟩
      have k2 : lit "end".toList ("route".toList ++ ((s1 ++ g2) ++ (u2 ++ r))) = none := by
        refine failsAt_lit (c := 'e') "nd".toList _ ?_
        rw [skip_solid so]
        intro h
        cases h
      have k3 : textNC ("route".toList ++ ((s1 ++ g2) ++ (u2 ++ r))) = some ("route".toList, (s1 ++ g2) ++ (u2 ++ r)) := by
        have := reads_textNC "route".toList ⟨by decide, by decide⟩ true ([] ++ ("route".toList ++ [])) ((s1 ++ g2) ++ (u2 ++ r))
          (.tok true (.str "route".toList) [] [] "route".toList [] .nil (by simp) rfl so (.nil false)) (Or.inr hst) trivial
        simpa using this
      have k4 : startTag (g ++ (u ++ ((s1 ++ g2) ++ (u2 ++ r)))) = some ("route".toList, (s1 ++ g2) ++ (u2 ++ r)) := by
        unfold startTag
        refine (bind_some k1).trans ?_
        rw [k2]
        exact k3
      obtain ⟨y, hy, ey⟩ := untilN_end u2 hu2 r (((s1 ++ g2) ++ (u2 ++ r)).length + 1) (s1 ++ g2) (by simp only [List.length_append]; omega)
        (fun h => hh (by rcases List.mem_append.1 h with h | h <;> simp [h])) (by
          intro p v e hv hp
          have e7 : g ++ (u ++ (s1 ++ (g2 ++ (u2 ++ [])))) = (g ++ (u ++ p)) ++ (v ++ u2) := by
            have : s1 ++ (g2 ++ (u2 ++ [])) = (s1 ++ g2) ++ u2 := by simp
            rw [this, e]; simp
          have := he _ _ e7 hp
          rw [← hu2] at this
          exact hv (by simpa using this))
      unfold unknownSection
      rw [k4]
      dsimp only
      rw [ey]
      have k5 : kw ".end" (y ++ (u2 ++ r)) = some ((), " route".toList ++ r) := by
        unfold kw
        refine (lex_tok _ hy ho2 r).trans ?_
        rw [hu2]
        rfl
      rw [bind_some k5]
      have := lex_tok (fun s => (strip id "route".toList s).map fun r => ((), r)) (g := [' ']) (u := "route".toList) (.blank ' ' [] (by simp [Blank]) .nil) so r
      refine this.trans ?_
      have e8 := strip_text id "route".toList "route".toList r rfl
      rw [e8]; rfl

theorem starN_text {α β : Type} {F : β → Str → Prop} {p : P α} {toks : β → List Tok} {val : β → α} {us : List Tok} (l : List β)
    (hl : ∀ x ∈ l, Reads (F x) p (toks x) (val x) ∧ Hd (toks x)) (hf : Foll F toks us l) (hu : Hd us) {b : Bool} {sa sb r : Str}
    (ha : Writes b (l.flatMap toks) sa) (hb : Writes (after b (l.flatMap toks)) us sb) (hr : Ends (after b (l.flatMap toks)) us r)
    (hp : p (sb ++ r) = none) {n : Nat} (hn : l.length < n) : starN p n (sa ++ sb ++ r) = (l.map val, sb ++ r) := by
  induction l generalizing b sa n with
  | nil =>
    cases ha
    cases n with
    | zero => omega
    | succ n => simp [starN, hp]
  | cons x l ih =>
    cases n with
    | zero => omega
    | succ n =>
      rw [List.flatMap_cons] at ha hb hr
      obtain ⟨s1, s2, rfl, h1, h2⟩ := ha.split
      rw [after_append] at hb hr
      have hx := hl x (by simp)
      have hh := hd_flatMap l (fun y hy => (hl y (List.mem_cons_of_mem _ hy)).2) hu
      have hw := h2.append hb
      have hr' : Ends (after b (toks x)) (l.flatMap toks ++ us) r := by unfold Ends; rw [after_append]; exact hr
      have e := hx.1 b s1 (s2 ++ sb ++ r) h1 (hw.ends hh.sp hr') (hf.1.skip hw r)
      have e2 := ih (fun y hy => hl y (List.mem_cons_of_mem _ hy)) hf.2 h2 hb hr (n := n) (by simp at hn; omega)
      have e3 : s1 ++ s2 ++ sb ++ r = s1 ++ (s2 ++ sb ++ r) := by simp
      rw [e3]
      simp only [starN, e, e2, List.map_cons]

theorem after_route (b : Bool) (x : Str × List (Extra × PObj ℚ)) : after b (routeToks x.1 x.2) = false := by
  unfold routeToks
  have : Q x.1 :: openB :: (x.2.flatMap (fun o => objToks o.1 o.2) ++ [closeB]) = (Q x.1 :: openB :: x.2.flatMap (fun o => objToks o.1 o.2)) ++ [closeB] := rfl
  rw [this, after_append]
  rfl

theorem secAlts_lost (ps : List Sec) (p q : Sec) (qs : List Sec) (s r : Str) (e : List (Ev ℚ)) (hp : ∀ x ∈ ps, x s = ([], none))
    (h1 : p s = (e, none)) (h2 : q s = ([], some r)) : secAlts (ps ++ p :: q :: qs) s = (e, some r) := by
  induction ps with
  | nil =>
    rw [List.nil_append]
    unfold secAlts
    rw [h1]
    unfold secAlts
    rw [h2]
    simp
  | cons x ps ih =>
    have := ih (fun y hy => hp y (List.mem_cons_of_mem _ hy))
    rw [List.cons_append]
    unfold secAlts
    rw [hp x (by simp)]
    simp only [this, List.nil_append]

/-- a section of routes one of which is not read -/
theorem step_lost (l1 : List (Str × List (Extra × PObj ℚ))) (x : Str × List (Extra × PObj ℚ)) (l2 : List (Str × List (Extra × PObj ℚ)))
    (h1 : WfSec (.route l1)) (hn : Quoted x.1) (hw : ∀ a ∈ x.2, WfObj a.1 a.2) (hx : ¬ ((∀ a ∈ x.2, ¬ BadObj a.2) ∧ DiesLast x.2))
    (b : Bool) (s r : Str) (hs : Writes b (routesToks (l1 ++ x :: l2)) s) (hp : '+' ∉ s) (hh : '#' ∉ s) (he : OnlyEnd s) (hr : Stop r) :
    step (s ++ r) = (secEvs (.route l1), some r) := by
  have hsw := routes_words hs
  have hh0 : ∀ l : List (Str × List (Extra × PObj ℚ)), Hd (l.flatMap (fun x : Str × List (Extra × PObj ℚ) => routeToks x.1 x.2) ++ [W ".end route"]) := fun l =>
    hd_flatMap l (fun x _ => Hd.tok _ _) (Hd.tok _ _)
  have hf := fails_sections ".route" _ (hh0 (l1 ++ x :: l2)).sp (by decide) 11 (by decide)
  have hsec : secStar ".route" (route.ev .route) ".end route" (s ++ r) = (secEvs (.route l1), none) := by
    have hk : secToks (.route (l1 ++ x :: l2)) = W ".route" :: ((l1 ++ x :: l2).flatMap (fun x => routeToks x.1 x.2) ++ [W ".end route"]) := rfl
    rw [hk] at hsw
    obtain ⟨s', e, k1, k2⟩ := kw_split ".route" (hh0 _).sp hsw (Or.inr hr)
    have hp' : '+' ∉ s' ∧ True := by
      refine ⟨fun hm => ?_, trivial⟩
      have := suf_kw ".route" _ _ _ e
      obtain ⟨p, hp2⟩ := this
      have : p ++ s' = s := by
        have : p ++ s' ++ r = s ++ r := by rw [← hp2]; simp
        exact List.append_cancel_right this
      exact hp (by rw [← this]; simp [hm])
    rw [List.flatMap_append, List.append_assoc] at k1
    have k2 : Ends false (l1.flatMap (fun x => routeToks x.1 x.2) ++ ((x :: l2).flatMap (fun x => routeToks x.1 x.2) ++ [W ".end route"])) r := Or.inr hr
    have hlen := k1.length_le' l1 (fun x _ => Hd.tok _ _)
    obtain ⟨sa, sb, rfl, w1, w2⟩ := k1.split
    have w3 := w2
    rw [List.flatMap_cons, List.append_assoc] at w3
    obtain ⟨sx, sy, rfl, w4, w5⟩ := w3.split
    have hend : Stop (sy ++ r) := by
      refine (w5.ends (hh0 l2).sp (Or.inr hr)).resolve_left ?_
      rw [after_route]; simp
    have hbad : route (sx ++ (sy ++ r)) = none :=
      (c105_exact_refuted x.1 x.2 hn hw _ sx (sy ++ r) w4 (fun h => hp'.1 (by simp [h])) (Or.inr hend)).2 hx
    have hev : (route.ev .route) (sx ++ sy ++ r) = none := by rw [List.append_assoc]; exact bind_none hbad
    have hfirst : First (fun o => ∀ d, o.head? = some d → '.'.toLower ≠ d.toLower) ((x :: l2).flatMap (fun x => routeToks x.1 x.2) ++ [W ".end route"]) :=
      first_q x.1 _ (by intro s d hd; cases hd; decide)
    have hst := starN_text (F := fun _ => Any) (p := route.ev .route) (toks := fun x => routeToks x.1 x.2) (val := fun x => Ev.route (x.1, x.2.map Prod.snd))
      l1 (fun y hy => by
        obtain ⟨q1, q2, q3, q4⟩ := h1 y hy
        exact ⟨Reads.ev (f := Ev.route) (fun b s r hs hr _ => c105_route_partial y.1 y.2 q1 q2 q3 q4 b s r hs hr), Hd.tok _ _⟩)
      (foll_all l1 (fun y _ => first_any _) (first_any _)) hfirst.hd w1 w2 (Or.inr hr) hev (n := (sa ++ (sx ++ sy) ++ r).length + 1)
      (by simp only [List.length_append] at hlen ⊢; omega)
    have hclose : kw ".end route" (sx ++ sy ++ r) = none := failsAt_kw ".end route" rfl _ (hfirst.skip w2 r)
    unfold secStar
    rw [e]
    dsimp only
    rw [List.append_assoc] at hst ⊢
    rw [hst, hclose]
    rfl
  have e0 : sections ++ [fun s => ([], (unknownSection s).map Prod.snd), fun s => ([], (textEOL s).map Prod.snd)] =
    sections.take 12 ++ secStar ".route" (route.ev .route) ".end route" :: (fun s => ([], (unknownSection s).map Prod.snd)) :: [fun s => ([], (textEOL s).map Prod.snd)] := rfl
  unfold step
  rw [e0]
  refine secAlts_lost _ _ _ _ _ _ _ (fun q hq => hf q hq b s r hsw (Or.inr hr)) hsec ?_
  rw [unknown_route _ b s r hs hh he hr]
  rfl

/-- **C107, refuted**: if one route of the section cannot be read (C105), the routes after it are lost with it, the ones before it stay, and the
file is accepted. -/
theorem c107_lost_refuted (F1 F2 : List PSec) (hF1 : ∀ x ∈ F1, WfSec x) (hF2 : ∀ x ∈ F2, WfSec x)
    (l1 : List (Str × List (Extra × PObj ℚ))) (x : Str × List (Extra × PObj ℚ)) (l2 : List (Str × List (Extra × PObj ℚ)))
    (h1 : WfSec (.route l1)) (hn : Quoted x.1) (hw : ∀ a ∈ x.2, WfObj a.1 a.2) (hx : ¬ ((∀ a ∈ x.2, ¬ BadObj a.2) ∧ DiesLast x.2))
    (s1 s2 s3 g : Str) (hs1 : Writes true (F1.flatMap secToks) s1) (hs2 : Writes (after true (F1.flatMap secToks)) (routesToks (l1 ++ x :: l2)) s2)
    (hp : '+' ∉ s2) (hh : '#' ∉ s2) (he : OnlyEnd s2) (hs3 : Writes false (F2.flatMap secToks) s3) (hg : Gap g) :
    read (s1 ++ (s2 ++ (s3 ++ g))) = (F1.flatMap secEvs ++ (l1.map fun x => Ev.route (x.1, x.2.map Prod.snd)) ++ F2.flatMap secEvs, true) := by
  have hl1 := len_secs F1 true s1 hs1
  have hl3 := len_secs F2 false s3 hs3
  have hsp : Sp (F2.flatMap secToks) := by
    cases F2 with
    | nil => trivial
    | cons y F => rw [List.flatMap_cons]; exact ((hd_sec y).app _).sp
  have hst3 : Stop (s3 ++ g) := (hs3.ends hsp (Or.inr hg.stopAll)).resolve_left (by simp)
  have hE : Ends (after true (F1.flatMap secToks)) (routesToks (l1 ++ x :: l2)) (s3 ++ g) := Or.inr hst3
  have hl2 : 0 < s2.length := List.length_pos_iff.2 (hs2.ne_nil (Hd.tok _ _))
  have hE1 : Ends true (F1.flatMap secToks) (s2 ++ (s3 ++ g)) := hs2.ends trivial hE
  obtain ⟨m, hm⟩ : ∃ m, (s1 ++ (s2 ++ (s3 ++ g))).length + 1 = F1.length + ((F2.length + (m + 1)) + 1) :=
    ⟨(s1 ++ (s2 ++ (s3 ++ g))).length - F1.length - F2.length - 1, by simp only [List.length_append]; omega⟩
  have e1 := stepsN_reads F1 hF1 true s1 _ hs1 hE1 ((F2.length + (m + 1)) + 1)
  have e2 := step_lost l1 x l2 h1 hn hw hx _ s2 (s3 ++ g) hs2 hp hh he hst3
  have e3 := stepsN_reads F2 hF2 false s3 g hs3 (Or.inr hg.stopAll) (m + 1)
  have e4 : stepsN ((F2.length + (m + 1)) + 1) (s2 ++ (s3 ++ g)) = (secEvs (.route l1) ++ F2.flatMap secEvs, g) := by
    unfold stepsN
    rw [e2]
    simp only [e3, stepsN_gap hg, List.append_nil]
  unfold read
  rw [hm, e1, e4, skip_gapEnd hg]
  simp [secEvs]

theorem strip_prefix' (k y x : Str) (h : strip Char.toLower k y = some x) : k.map Char.toLower <+: y.map Char.toLower := by
  induction k generalizing y with
  | nil => exact List.nil_prefix
  | cons c k ih =>
    cases y with
    | nil => cases h
    | cons d y =>
      simp only [strip] at h
      split at h
      · rename_i hc
        rw [List.map_cons, List.map_cons, hc]
        exact List.cons_prefix_cons.2 ⟨rfl, ih y h⟩
      · cases h

/-- a text without `.end` holds no end of an unknown section -/
theorem unknown_open (s : Str) (he : ∀ p q, s = p ++ q → ¬ ".end".toList <+: q.map Char.toLower) : unknownSection s = none := by
  unfold unknownSection
  cases ht : startTag s with
  | none => rfl
  | some x =>
    dsimp only
    refine bind_none ?_
    have h1 : x.2 <:+ s := by
      unfold startTag at ht
      refine Suf.bind (suf_lit ['.']) (fun _ => ?_) s x.1 x.2 ht
      intro s b r h
      dsimp only at h
      split at h
      · cases h
      · exact suf_textNC _ _ _ h
    obtain ⟨p, hp⟩ := ((skip_suffix _).trans (untilN_suffix (kw ".end") (x.2.length + 1) x.2)).trans h1
    have h3 := he p _ hp.symm
    generalize untilN (kw ".end") (x.2.length + 1) x.2 = y at h3 ⊢
    show (strip Char.toLower ".end".toList (skip y)).map _ = none
    cases hy : strip Char.toLower ".end".toList (skip y) with
    | none => rfl
    | some z => exact absurd (strip_prefix' _ _ _ hy) h3

theorem starN_last {α β : Type} {p : P α} {toks : β → List Tok} {val : β → α} (l : List β) (hl : ∀ x ∈ l, Reads Any p (toks x) (val x) ∧ Hd (toks x))
    (hp : p [] = none) {b : Bool} {s : Str} (hs : Writes b (l.flatMap toks) s) {n : Nat} (hn : l.length < n) : starN p n s = (l.map val, []) := by
  induction l generalizing b s n with
  | nil =>
    cases hs
    cases n with
    | zero => omega
    | succ n => simp [starN, hp]
  | cons x l ih =>
    cases n with
    | zero => omega
    | succ n =>
      rw [List.flatMap_cons] at hs
      obtain ⟨s1, s2, rfl, h1, h2⟩ := hs.split
      have hx := hl x (by simp)
      have hsp : Sp (l.flatMap toks) := by
        cases l with
        | nil => trivial
        | cons y l => rw [List.flatMap_cons]; exact ((hl y (by simp)).2.app _).sp
      have hE := h2.ends hsp (r := []) (Or.inr (Or.inl rfl))
      rw [List.append_nil] at hE
      have e := hx.1 b s1 s2 h1 hE trivial
      have e2 := ih (fun y hy => hl y (List.mem_cons_of_mem _ hy)) h2 (n := n) (by simp at hn; omega)
      simp only [starN, e, e2, List.map_cons]

/-- all sections but one fail without calls -/
theorem secAlts_none (ps : List Sec) (p : Sec) (qs : List Sec) (s : Str) (e : List (Ev ℚ)) (hp : ∀ x ∈ ps, x s = ([], none)) (h1 : p s = (e, none))
    (hq : ∀ x ∈ qs, x s = ([], none)) : secAlts (ps ++ p :: qs) s = (e, none) := by
  have hall : ∀ ps : List Sec, (∀ p ∈ ps, p s = ([], none)) → secAlts ps s = ([], none) := by
    intro ps
    induction ps with
    | nil => intro _; rfl
    | cons p ps ih =>
      intro hp
      unfold secAlts
      rw [hp p (by simp)]
      simp only [ih (fun q hq => hp q (List.mem_cons_of_mem _ hq)), List.nil_append]
  induction ps with
  | nil =>
    rw [List.nil_append]
    unfold secAlts
    rw [h1]
    simp only [hall qs hq, List.append_nil]
  | cons x ps ih =>
    have := ih (fun y hy => hp y (List.mem_cons_of_mem _ hy))
    rw [List.cons_append]
    unfold secAlts
    rw [hp x (by simp)]
    simp only [this, List.nil_append]

/-- a section of routes that breaks off -/
theorem step_broken (l : List (Str × List (Extra × PObj ℚ))) (hl : WfSec (.route l)) (b : Bool) (s : Str)
    (hs : Writes b (W ".route" :: l.flatMap fun x => routeToks x.1 x.2) s)
    (hn : ∀ c ∈ s, c ≠ '\n' ∧ c ≠ '\r') (he : ∀ p q, s = p ++ q → ¬ ".end".toList <+: q.map Char.toLower) :
    step s = (secEvs (.route l), none) := by
  have hsp : Sp (l.flatMap fun x => routeToks x.1 x.2) := by
    cases l with
    | nil => trivial
    | cons y l => rw [List.flatMap_cons]; exact ((Hd.tok _ _).app _).sp
  have hE : Ends b (W ".route" :: l.flatMap fun x => routeToks x.1 x.2) [] := Or.inr (Or.inl rfl)
  have hf := fails_sections ".route" _ hsp (by decide) 11 (by decide)
  have hsec : secStar ".route" (route.ev .route) ".end route" s = (secEvs (.route l), none) := by
    obtain ⟨s', e, k1, k2⟩ := kw_split ".route" hsp hs hE
    rw [List.append_nil, List.append_nil] at e
    have k1' : Writes false (l.flatMap (fun x => routeToks x.1 x.2) ++ []) s' := by rw [List.append_nil]; exact k1
    have hlen := k1'.length_le' l (fun x _ => Hd.tok _ _)
    have hst := starN_last (p := route.ev .route) (toks := fun x : Str × List (Extra × PObj ℚ) => routeToks x.1 x.2)
      (val := fun x => Ev.route (x.1, x.2.map Prod.snd)) l (fun y hy => by
        obtain ⟨q1, q2, q3, q4⟩ := hl y hy
        exact ⟨Reads.ev (f := Ev.route) (fun b s r hs hr _ => c105_route_partial y.1 y.2 q1 q2 q3 q4 b s r hs hr), Hd.tok _ _⟩)
      rfl k1 (n := s'.length + 1) (by omega)
    unfold secStar
    rw [e]
    dsimp only
    rw [hst]
    rfl
  have heol : textEOL s = none := by
    unfold textEOL lex
    have hne : ∀ c ∈ skip s, isEol c = false := fun c hc => by
      have := hn c ((skip_suffix s).subset hc)
      simp [isEol, this.1, this.2]
    have hdw : (skip s).dropWhile (fun c => !isEol c) = [] := by
      rw [List.dropWhile_eq_nil_iff]
      intro c hc
      simp [hne c hc]
    dsimp only
    rw [hdw]
    split <;> rfl
  have e0 : sections ++ [fun s => ([], (unknownSection s).map Prod.snd), fun s => ([], (textEOL s).map Prod.snd)] =
    sections.take 12 ++ secStar ".route" (route.ev .route) ".end route" :: [fun s => ([], (unknownSection s).map Prod.snd), fun s => ([], (textEOL s).map Prod.snd)] := rfl
  unfold step
  rw [e0]
  refine secAlts_none _ _ _ _ _ (fun q hq => ?_) hsec ?_
  · have := hf q hq b s [] hs hE
    rw [List.append_nil] at this
    exact this
  · intro x hx
    simp only [List.mem_cons, List.not_mem_nil, or_false] at hx
    rcases hx with rfl | rfl
    · dsimp only; rw [unknown_open s he]; rfl
    · dsimp only; rw [heol]; rfl

/-- **C107, refuted**: a file that breaks off in a section of routes, without an end of line in it, is rejected after the routes before the break
were handled. -/
theorem c107_broken_refuted (F : List PSec) (hF : ∀ x ∈ F, WfSec x) (l : List (Str × List (Extra × PObj ℚ))) (hl : WfSec (.route l))
    (s1 s2 : Str) (hs1 : Writes true (F.flatMap secToks) s1)
    (hs2 : Writes (after true (F.flatMap secToks)) (W ".route" :: l.flatMap fun x => routeToks x.1 x.2) s2)
    (hn : ∀ c ∈ s2, c ≠ '\n' ∧ c ≠ '\r') (he : ∀ p q, s2 = p ++ q → ¬ ".end".toList <+: q.map Char.toLower) :
    read (s1 ++ s2) = (F.flatMap secEvs ++ (l.map fun x => Ev.route (x.1, x.2.map Prod.snd)), false) := by
  have hlen := len_secs F true s1 hs1
  obtain ⟨m, hm⟩ : ∃ m, (s1 ++ s2).length + 1 = F.length + (m + 1) := ⟨(s1 ++ s2).length - F.length, by simp only [List.length_append]; omega⟩
  have hE : Ends true (F.flatMap secToks) s2 := by
    have := hs2.ends trivial (r := []) (Or.inr (Or.inl rfl))
    rwa [List.append_nil] at this
  have e := stepsN_reads F hF true s1 s2 hs1 hE (m + 1)
  have e2 : stepsN (m + 1) s2 = (secEvs (.route l), s2) := by
    unfold stepsN
    rw [step_broken l hl _ s2 hs2 hn he]
  have hne : skip s2 ≠ [] := by
    have := (Hd.tok _ _ : Hd (W ".route" :: l.flatMap fun x => routeToks x.1 x.2))
    cases hs2 with
    | tok _ _ _ g u s hg hb hu ho hs =>
      rw [skip_gap hg, skip_solid ho]
      obtain ⟨c, w, rfl, _⟩ := ho
      simp
  unfold read
  rw [hm, e, e2]
  simp [secEvs, hne]

/-- **C106**: an empty text in quotes is no name. -/
theorem c106_empty (g r : Str) (hg : Gap g) : textDQ (g ++ '"' :: '"' :: r) = none := by
  unfold textDQ lex
  rw [skip_gap hg]
  rfl

/-! ### examples -/

theorem ex_solid (c : Char) (u : Str) (h : (isSpace c || c == '#') = false) : Solid (c :: u) := by
  simp only [Bool.or_eq_false_iff, beq_eq_false_iff_ne] at h
  exact ⟨c, u, rfl, fun hb => by rw [(isSpace_iff c).2 hb] at h; exact absurd h.1 (by simp), h.2⟩

theorem ex_gap : Gap [' '] := .blank ' ' [] (by simp [Blank]) .nil

theorem ex_int (d : Char) (hd : d.isDigit = true) (v : Int) (hv : v = (Nat.ofDigitChars 10 [d] 0 : Nat)) (h10 : v < 10) : IntText [d] v :=
  ⟨[], 1, [d], .none, ⟨by simp, by simpa using hd⟩, rfl, by simpa using hv, by omega, by omega⟩

/-- a token after a blank -/
theorem ex_tok {b : Bool} {l : Lit} {ts : List Tok} {c : Char} {u s : Str} (hu : l.Text (c :: u)) (hc : (isSpace c || c == '#') = false)
    (hs : Writes false ts s) : Writes b (.tok l :: ts) ([' '] ++ ((c :: u) ++ s)) := .tok b l ts [' '] (c :: u) s ex_gap (by simp) hu (ex_solid c u hc) hs

/-- a section of layers and a version, with a comment at the end -/
example : ∃ F s g, (∀ x ∈ F, WfSec x) ∧ Writes true (F.flatMap secToks) s ∧ Gap g ∧
    s ++ g = " .Version 1 2 .layer \"a\" 3 S \"m\" \"d\" .END layer # end\n".toList ∧
    F = [.version 1 2, .layer [⟨"a".toList, 3, 'S', "m".toList, "d".toList⟩]] := by
  refine ⟨_, " .Version 1 2 .layer \"a\" 3 S \"m\" \"d\" .END layer".toList, " # end\n".toList, ?_, ?_, ?_, rfl, rfl⟩
  · intro x hx
    simp only [List.mem_cons, List.not_mem_nil, or_false] at hx
    rcases hx with rfl | rfl
    · trivial
    · intro y hy
      simp only [List.mem_cons, List.not_mem_nil, or_false] at hy
      subst hy
      exact ⟨⟨by decide, by decide⟩, by decide, ⟨by decide, by decide⟩, ⟨by decide, by decide⟩⟩
  · refine ex_tok (u := "Version".toList) (by show _ = _; decide) rfl (ex_tok (u := []) (ex_int '1' rfl _ rfl (by decide)) rfl (ex_tok (u := []) (ex_int '2' rfl _ rfl (by decide)) rfl ?_))
    refine ex_tok (u := "layer".toList) (by show _ = _; decide) rfl (ex_tok (u := "a\"".toList) rfl rfl (ex_tok (u := []) (by have h3 := intText_num (ex_int '3' rfl 3 rfl (by decide)); exact_mod_cast h3) rfl ?_))
    exact ex_tok (u := []) rfl rfl (ex_tok (u := "m\"".toList) rfl rfl (ex_tok (u := "d\"".toList) rfl rfl (ex_tok (u := "END layer".toList) (by show _ = _; decide) rfl (.nil false))))
  · exact .blank ' ' _ (by simp [Blank]) (.comment " end".toList '\n' [] (by decide) (Or.inl rfl) .nil)

/-- a section of routes with a diamond: the hypotheses of the theorem on lost routes -/
example : ∃ (x : Str × List (Extra × PObj ℚ)) (s : Str), Quoted x.1 ∧ (∀ a ∈ x.2, WfObj a.1 a.2) ∧ ¬ ((∀ a ∈ x.2, ¬ BadObj a.2) ∧ DiesLast x.2) ∧
    Writes true (routesToks ([] ++ x :: [])) s ∧ '+' ∉ s ∧ '#' ∉ s ∧ OnlyEnd s := by
  refine ⟨("n".toList, [(⟨none, true⟩, .diamond false 1 2 (3, 4))]), " .route \"n\" { diamond 1 2 3 4 } .end route".toList, ⟨by decide, by decide⟩, ?_, ?_, ?_,
    by decide, by decide, ?_⟩
  · intro a ha; simp only [List.mem_cons, List.not_mem_nil, or_false] at ha; subst ha; trivial
  · rintro ⟨h, _⟩; exact h _ (List.mem_cons_self ..) trivial
  · have hq : ∀ d : Char, d.isDigit = true → ∀ v : Int, v = (Nat.ofDigitChars 10 [d] 0 : Nat) → v < 10 → NumText [d] v := fun d hd v hv h => intText_num (ex_int d hd v hv h)
    refine ex_tok (u := "route".toList) rfl rfl (ex_tok (u := "n\"".toList) rfl rfl (ex_tok (u := []) rfl rfl (ex_tok (u := "iamond".toList) (by show _ = _; decide) rfl ?_)))
    refine ex_tok (u := []) (ex_int '1' rfl _ rfl (by decide)) rfl (ex_tok (u := []) (by have := hq '2' rfl 2 rfl (by decide); exact_mod_cast this) rfl
      (ex_tok (u := []) (by have := hq '3' rfl 3 rfl (by decide); exact_mod_cast this) rfl (ex_tok (u := []) (by have := hq '4' rfl 4 rfl (by decide); exact_mod_cast this) rfl
        (ex_tok (u := []) rfl rfl (ex_tok (u := "end route".toList) rfl rfl (.nil false))))))
  · intro p q e hpre
    have hq : q ∈ List.tails " .route \"n\" { diamond 1 2 3 4 } .end route".toList := (List.mem_tails _ _).2 ⟨p, e.symm⟩
    revert q
    have key : ∀ q ∈ List.tails " .route \"n\" { diamond 1 2 3 4 } .end route".toList, ".end".toList <+: q.map Char.toLower → q = ".end route".toList := by decide +kernel
    exact fun q _ h1 h2 => key q h2 h1

/-- a section of routes that breaks off: the hypotheses of the theorem on broken files -/
example : ∃ (l : List (Str × List (Extra × PObj ℚ))) (s : Str), l.length = 1 ∧ WfSec (.route l) ∧
    Writes true (W ".route" :: l.flatMap fun x => routeToks x.1 x.2) s ∧ (∀ c ∈ s, c ≠ '\n' ∧ c ≠ '\r') ∧
    ∀ p q, s = p ++ q → ¬ ".end".toList <+: q.map Char.toLower := by
  refine ⟨[("n".toList, [(⟨none, true⟩, .circle false 1 2 (3, 4))])], " .route \"n\" { circle 1 2 3 4 }".toList, rfl, ?_, ?_, by decide, ?_⟩
  · intro a ha
    simp only [List.mem_cons, List.not_mem_nil, or_false] at ha
    subst ha
    refine ⟨⟨by decide, by decide⟩, ?_, ?_, ?_⟩
    · intro a ha; simp only [List.mem_cons, List.not_mem_nil, or_false] at ha; subst ha; trivial
    · intro a ha; simp only [List.mem_cons, List.not_mem_nil, or_false] at ha; subst ha; exact fun h => h
    · trivial
  · have hq : ∀ d : Char, d.isDigit = true → ∀ v : Int, v = (Nat.ofDigitChars 10 [d] 0 : Nat) → v < 10 → NumText [d] v := fun d hd v hv h => intText_num (ex_int d hd v hv h)
    refine ex_tok (u := "route".toList) (by show _ = _; decide) rfl (ex_tok (u := "n\"".toList) rfl rfl (ex_tok (u := []) rfl rfl (ex_tok (u := "ircle".toList) (by show _ = _; decide) rfl ?_)))
    exact ex_tok (u := []) (ex_int '1' rfl _ rfl (by decide)) rfl (ex_tok (u := []) (by have := hq '2' rfl 2 rfl (by decide); exact_mod_cast this) rfl
      (ex_tok (u := []) (by have := hq '3' rfl 3 rfl (by decide); exact_mod_cast this) rfl (ex_tok (u := []) (by have := hq '4' rfl 4 rfl (by decide); exact_mod_cast this) rfl
        (ex_tok (u := []) rfl rfl (.nil false)))))
  · intro p q e hpre
    have hq : q ∈ List.tails " .route \"n\" { circle 1 2 3 4 }".toList := (List.mem_tails _ _).2 ⟨p, e.symm⟩
    have key : ∀ q ∈ List.tails " .route \"n\" { circle 1 2 3 4 }".toList, ¬ ".end".toList <+: q.map Char.toLower := by decide +kernel
    exact key q hq hpre

/-- whole files -/
example : read ".version 1 0\n.unit MM\n.material\nC \"cu\" 5e7\nD \"fr4\" 0 4.2 1\n.end material\n.route\n\"a\" { circle 1 2 0 0 }\n.end route\n".toList =
    ([.version 1 0, .unit false, .material ⟨true, "cu".toList, 50000000, 0, 0, 0, 0⟩, .material ⟨false, "fr4".toList, 0, 21 / 5, 1, 0, 0⟩,
      .route ("a".toList, [.circle false 1 2 (0, 0)])], true) := by decide +kernel
example : read ".route\n\"a\" { circle 1 2 0 0 }\n\"b\" { diamond 1 2 0 0 }\n\"c\" { circle 1 2 0 0 }\n.end route\n".toList =
    ([.route ("a".toList, [.circle false 1 2 (0, 0)])], true) := by decide +kernel
example : read "anything\n".toList = ([], true) := by decide +kernel
example : read ".version 1 0\n.route \"a\" { circle 1 2 0 0 } \"b\" {".toList =
  ([.version 1 0, .route (['a'], [.circle false 1 2 (0, 0)])], false) := by decide +kernel
example : read ".version 1 0\n# end".toList = ([.version 1 0], false) := by decide +kernel
/-- pins with numbers as names -/
example : ∃ s, Writes true (S ['P'] :: openB :: (pinToks true ⟨['1'], ['i', 'o'], ((0 : Int), (0 : Int)), 0, 0⟩ ++ [S ['2'], I 1, I 0, S ['i', 'o'], closeB])) s ∧
    Name ['P'] ∧ WfPin true ⟨['1'], ['i', 'o'], ((0 : Int), (0 : Int)), 0, 0⟩ ∧ IntText ['2'] 2 ∧ Ident ['i', 'o'] := by
  have hio : Ident ['i', 'o'] := ⟨'i', ['o'], rfl, by decide, by decide⟩
  have h0 : NumText ['0'] ((0 : Int) : ℚ) := intText_num (ex_int '0' rfl 0 rfl (by decide))
  refine ⟨" P { 1 0 0 io 2 1 0 io }".toList, ?_, ⟨by decide, by decide⟩, ⟨⟨by decide, by decide⟩, hio, fun _ => ⟨rfl, rfl⟩⟩, ex_int '2' rfl 2 rfl (by decide), hio⟩
  refine ex_tok (u := []) rfl rfl (ex_tok (u := []) rfl rfl (ex_tok (u := []) rfl rfl (ex_tok (u := []) h0 rfl (ex_tok (u := []) h0 rfl (ex_tok (u := ['o']) rfl rfl ?_)))))
  exact ex_tok (u := []) rfl rfl (ex_tok (u := []) (ex_int '1' rfl 1 rfl (by decide)) rfl (ex_tok (u := []) (ex_int '0' rfl 0 rfl (by decide)) rfl
    (ex_tok (u := ['o']) rfl rfl (ex_tok (u := []) rfl rfl (.nil false)))))
example : part "P { 1 0 0 io 2 1 0 io }\n".toList = none := by decide +kernel
example : (part "P { A 0 0 io B 1 0 io }\n".toList).isSome = true := by decide +kernel
example : (shape "1 diamond 2\n".toList).map Prod.fst = some (1, .square 2) := by decide +kernel

end Ecad.XflP
