import Verif.Xfl.ParserSec
import Mathlib.Data.List.TakeWhile
/-!
Whole XFL files.
-/
namespace Ecad.XflP
open Ecad.Xfl

/-! ### texts left are ends of the text -/

/-- what is left is an end of the text -/
def Suf {α : Type} (p : P α) : Prop := ∀ s a r, p s = some (a, r) → r <:+ s

theorem skipIn_suffix (b : Bool) (s : Str) : skipIn b s <:+ s := by
  induction s generalizing b with
  | nil => cases b <;> exact List.suffix_refl _
  | cons c s ih =>
    cases b with
    | true => exact (ih _).trans (List.suffix_cons c s)
    | false =>
      unfold skipIn
      split
      · exact (ih _).trans (List.suffix_cons c s)
      · split
        · exact (ih _).trans (List.suffix_cons c s)
        · exact List.suffix_refl _

theorem skip_suffix (s : Str) : skip s <:+ s := skipIn_suffix false s

theorem strip_suffix (f : Char → Char) (w s r : Str) (h : strip f w s = some r) : r <:+ s ∧ r.length + w.length = s.length := by
  induction w generalizing s with
  | nil => cases h; exact ⟨List.suffix_refl _, rfl⟩
  | cons c w ih =>
    cases s with
    | nil => cases h
    | cons d s =>
      simp only [strip] at h
      split at h
      · have := ih s h
        exact ⟨this.1.trans (List.suffix_cons d s), by simp only [List.length_cons]; omega⟩
      · cases h

theorem Suf.bind {α β : Type} {p : P α} {f : α → P β} (hp : Suf p) (hf : ∀ a, Suf (f a)) : Suf (p >>= f) := by
  intro s b r h
  have h : P.bind p f s = some (b, r) := h
  unfold P.bind at h
  cases hx : p s with
  | none => rw [hx] at h; cases h
  | some x =>
    rw [hx] at h
    exact (hf x.1 x.2 b r h).trans (hp s x.1 x.2 hx)

theorem Suf.pure {α : Type} (a : α) : Suf (Pure.pure a : P α) := by
  intro s b r h
  cases h
  exact List.suffix_refl _

theorem Suf.or {α : Type} {p q : P α} (hp : Suf p) (hq : Suf q) : Suf (p.or q) := by
  intro s b r h
  unfold P.or at h
  cases hx : p s with
  | none => rw [hx] at h; exact hq s b r h
  | some x => rw [hx] at h; cases h; exact hp s _ _ hx

theorem Suf.alts {α : Type} {ps : List (P α)} (h : ∀ p ∈ ps, Suf p) : Suf (XflP.alts ps) := by
  induction ps with
  | nil => intro s b r h; cases h
  | cons p ps ih => exact (h p (by simp)).or (ih (fun q hq => h q (List.mem_cons_of_mem _ hq)))

theorem Suf.opt {α : Type} {p : P α} (hp : Suf p) : Suf (XflP.opt p) := by
  intro s b r h
  unfold XflP.opt at h
  cases hx : p s with
  | none => rw [hx] at h; cases h; exact List.suffix_refl _
  | some x => rw [hx] at h; cases h; exact hp s _ _ hx

theorem Suf.starN {α : Type} {p : P α} (hp : Suf p) (n : Nat) (s : Str) : (XflP.starN p n s).2 <:+ s := by
  induction n generalizing s with
  | zero => exact List.suffix_refl _
  | succ n ih =>
    unfold XflP.starN
    cases hx : p s with
    | none => exact List.suffix_refl _
    | some x => exact (ih x.2).trans (hp s x.1 x.2 hx)

theorem Suf.star {α : Type} {p : P α} (hp : Suf p) : Suf (XflP.star p) := by
  intro s b r h
  unfold XflP.star at h
  have : XflP.starN p (s.length + 1) s = (b, r) := Option.some.inj h
  have h2 := hp.starN (s.length + 1) s
  rw [this] at h2
  exact h2

theorem Suf.lex {α : Type} {p : P α} (hp : Suf p) : Suf (XflP.lex p) := fun s b r h => (hp _ b r h).trans (skip_suffix s)

theorem suf_lit (w : Str) : Suf (lit w) := by
  refine Suf.lex ?_
  intro s b r h
  dsimp only at h
  cases hx : strip id w s with
  | none => rw [hx] at h; cases h
  | some x => rw [hx] at h; cases h; exact (strip_suffix _ _ _ _ hx).1

theorem suf_kw (w : String) : Suf (kw w) := by
  refine Suf.lex ?_
  intro s b r h
  dsimp only at h
  cases hx : strip Char.toLower w.toList s with
  | none => rw [hx] at h; cases h
  | some x => rw [hx] at h; cases h; exact (strip_suffix _ _ _ _ hx).1

theorem suf_many1 (f : Char → Bool) : Suf (many1 f) := by
  intro s b r h
  unfold many1 at h
  split at h
  · cases h
  · cases h; exact List.dropWhile_suffix _

theorem suf_chr (f : Char → Bool) : Suf (chr f) := by
  refine Suf.lex ?_
  intro s b r h
  cases s with
  | nil => cases h
  | cons c s =>
    dsimp only at h
    split at h
    · cases h; exact List.suffix_cons _ _
    · cases h

theorem suf_text : Suf text := by
  refine Suf.lex ?_
  intro s b r h
  cases s with
  | nil => cases h
  | cons c s =>
    dsimp only at h
    split at h
    · cases h; exact (List.dropWhile_suffix _).trans (List.suffix_cons _ _)
    · cases h

theorem suf_textNC : Suf textNC := (suf_many1 _).lex

theorem suf_textDQ : Suf textDQ := by
  refine Suf.lex ?_
  intro s b r h
  dsimp only at h
  split at h
  · rename_i s
    split at h
    · rename_i r' heq
      split at h
      · cases h
      · cases h
        have : (s.dropWhile (· != '"')) <:+ s := List.dropWhile_suffix _
        rw [heq] at this
        exact ((List.suffix_cons _ _).trans this).trans (List.suffix_cons _ _)
    · cases h
  · cases h

theorem sign_suffix (s : Str) : (sign s).2 <:+ s := by
  unfold sign
  split
  · exact List.suffix_cons _ _
  · exact List.suffix_cons _ _
  · exact List.suffix_refl _

theorem suf_intR : Suf intR := by
  intro s b r h
  unfold intR at h
  dsimp only at h
  by_cases h1 : (sign s).2.takeWhile Char.isDigit = []
  · rw [if_pos h1] at h; cases h
  · rw [if_neg h1] at h
    generalize (if (sign s).1 = true then _ else _ : Int) = v at h
    by_cases h2 : -2147483648 ≤ v ∧ v ≤ 2147483647
    · rw [if_pos h2] at h; cases h; exact (List.dropWhile_suffix _).trans (sign_suffix s)
    · rw [if_neg h2] at h; cases h

theorem expo_suffix (s : Str) : (expo s).2 <:+ s := by
  unfold expo
  split
  · dsimp only
    split
    · exact ((List.dropWhile_suffix _).trans (sign_suffix _)).trans (List.suffix_cons _ _)
    · exact List.suffix_refl _
  · exact List.suffix_refl _

theorem frac_suffix (s : Str) : (frac s).2 <:+ s := by
  unfold frac
  split
  · exact (List.dropWhile_suffix _).trans (List.suffix_cons _ _)
  · exact List.suffix_refl _

theorem suf_doubleR : Suf doubleR := by
  intro s b r h
  unfold doubleR at h
  dsimp only at h
  split at h
  · cases h
  · cases h
    exact (((expo_suffix _).trans (frac_suffix _)).trans (List.dropWhile_suffix _)).trans (sign_suffix s)

theorem suf_int : Suf int_ := suf_intR.lex
theorem suf_double : Suf double_ := suf_doubleR.lex

theorem suf_eolR : Suf eolR := by
  intro s b r h
  unfold eolR at h
  split at h
  · cases h; exact (List.suffix_cons _ _).trans (List.suffix_cons _ _)
  · cases h; exact List.suffix_cons _ _
  · cases h; exact List.suffix_cons _ _
  · cases h

theorem suf_blanks1 : Suf blanks1 := by
  intro s b r h
  unfold blanks1 at h
  cases hx : many1 (· == ' ') s with
  | none => rw [hx] at h; cases h
  | some x => rw [hx] at h; cases h; exact suf_many1 _ s _ _ hx

theorem suf_blanks0 : Suf blanks0 := by
  intro s b r h
  unfold blanks0 at h
  cases h
  exact List.dropWhile_suffix _

theorem suf_pinTail : Suf pinTail := by
  intro s b r h
  unfold pinTail at h
  cases hx : int_ s with
  | none => rw [hx] at h; cases h; exact List.suffix_refl _
  | some x =>
    rw [hx] at h
    dsimp only at h
    cases hy : int_ x.2 with
    | none => rw [hy] at h; cases h; exact List.suffix_refl _
    | some y =>
      rw [hy] at h
      cases h
      exact (suf_int _ _ _ hy).trans (suf_int _ _ _ hx)

/-- parsers made of these -/
macro "suf" : tactic => `(tactic| repeat' first
  | exact suf_kw _ | exact suf_lit _ | exact suf_chr _ | exact suf_text | exact suf_textNC | exact suf_textDQ | exact suf_int | exact suf_double
  | exact suf_intR | exact suf_doubleR | exact suf_eolR | exact suf_blanks1 | exact suf_blanks0 | exact suf_many1 _ | exact suf_pinTail
  | exact Suf.pure _ | apply Suf.bind | apply Suf.opt | apply Suf.star | apply Suf.lex | apply Suf.or | assumption | intro _)

theorem suf_point : Suf point := by unfold point; suf
theorem suf_polygon : Suf polygon := by have := suf_point; unfold polygon; suf
theorem suf_composite : Suf composite := by
  have h1 := suf_point
  have h2 : Suf arc := by unfold arc; suf
  have h3 : Suf seg := by unfold seg; suf
  unfold composite; suf
theorem suf_material : Suf material := by unfold material; suf
theorem suf_layer : Suf layer := by unfold layer; suf
theorem suf_shape : Suf shape := by
  have h1 := suf_polygon
  have h2 := suf_composite
  have h4 : Suf two := by unfold two; have := suf_point; suf
  have h5 : Suf three := by unfold three; suf
  unfold shape
  refine suf_int.bind fun i => Suf.bind (Suf.alts ?_) fun g => Suf.pure _
  intro p hp
  simp only [geoAlts, List.mem_cons, List.not_mem_nil, or_false] at hp
  rcases hp with rfl | rfl | rfl | rfl | rfl | rfl | rfl | rfl | rfl | rfl | rfl <;> (unfold kwThen; suf)
theorem suf_padstack : Suf padstack := by
  have h1 : Suf pad := by unfold pad; suf
  unfold padstack; suf
theorem suf_via : Suf via := by unfold via; suf
theorem suf_part : Suf part := by
  have h1 := suf_point
  have h2 : Suf pin := by unfold pin; suf
  have h3 : Suf partTail := by unfold partTail; suf
  unfold part; suf
theorem suf_net : Suf net := by
  have h1 := suf_point
  have h2 : Suf node := by unfold node; suf
  unfold net; suf
theorem suf_board : Suf board := by
  have h1 := suf_polygon
  have h2 := suf_composite
  have h3 := suf_point
  refine Suf.alts ?_
  intro p hp
  simp only [List.mem_cons, List.not_mem_nil, or_false] at hp
  rcases hp with rfl | rfl | rfl | rfl <;> suf
theorem suf_others : Suf others := by
  refine Suf.alts ?_
  intro p hp
  simp only [List.mem_cons, List.not_mem_nil, or_false] at hp
  rcases hp with rfl | rfl | rfl | rfl <;> suf
theorem suf_objs : Suf (alts objAlts) := by
  have h1 := suf_polygon
  have h2 := suf_composite
  have h3 := suf_point
  have h4 : Suf two := by unfold two; suf
  have h5 : ∀ a b, Suf (solidOrVoid a b) := by intro a b; unfold solidOrVoid; suf
  have h6 : ∀ f, Suf (rotMirror f) := by intro f; unfold rotMirror; suf
  refine Suf.alts ?_
  intro p hp
  simp only [objAlts, List.mem_cons, List.not_mem_nil, or_false] at hp
  rcases hp with rfl | rfl | rfl | rfl | rfl | rfl | rfl | rfl | rfl | rfl
  · unfold instPath; suf
  · unfold instVia; suf
  · unfold instBondwire; suf
  · refine (h5 _ _).bind fun _ => ?_; suf
  · refine (h5 _ _).bind fun _ => ?_; suf
  · refine (h5 _ _).bind fun _ => ?_; suf
  · refine (h5 _ _).bind fun _ => ?_; suf
  · unfold instAnnular; suf
  · refine (h5 _ _).bind fun _ => ?_; suf
  · refine (h5 _ _).bind fun _ => suf_int.bind fun _ => suf_int.bind fun _ => h3.bind fun _ => (h6 _).bind fun _ => Suf.pure _

theorem suf_route : Suf route :=
  suf_textDQ.bind fun _ => (suf_lit _).bind fun _ => suf_objs.star.bind fun _ => (suf_lit _).bind fun _ => Suf.pure _

/-! ### steps take text -/

/-- what is left is a shorter end of the text -/
def Less (r s : Str) : Prop := r <:+ s ∧ r.length < s.length

theorem Less.trans_left {a b c : Str} (h : a <:+ b) (h2 : Less b c) : Less a c := ⟨h.trans h2.1, lt_of_le_of_lt h.length_le h2.2⟩

theorem kw_less (w : String) (hw : w.toList ≠ []) (s r : Str) (h : kw w s = some ((), r)) : Less r s := by
  unfold kw lex at h
  dsimp only at h
  cases hx : strip Char.toLower w.toList (skip s) with
  | none => rw [hx] at h; cases h
  | some x =>
    rw [hx] at h; cases h
    have h1 := strip_suffix _ _ _ _ hx
    have h2 := (skip_suffix s).length_le
    have h3 : 0 < w.toList.length := List.length_pos_iff.2 hw
    exact ⟨h1.1.trans (skip_suffix s), by omega⟩

theorem lit_less (w : Str) (hw : w ≠ []) (s r : Str) (h : lit w s = some ((), r)) : Less r s := by
  unfold lit lex at h
  dsimp only at h
  cases hx : strip id w (skip s) with
  | none => rw [hx] at h; cases h
  | some x =>
    rw [hx] at h; cases h
    have h1 := strip_suffix _ _ _ _ hx
    have h2 := (skip_suffix s).length_le
    have h3 : 0 < w.length := List.length_pos_iff.2 hw
    exact ⟨h1.1.trans (skip_suffix s), by omega⟩

theorem kwBind_less {α : Type} {w : String} {f : Unit → P α} (hf : Suf (f ())) (hw : w.toList ≠ []) {s : Str} {a : α} {r : Str}
    (h : (kw w >>= f) s = some (a, r)) : Less r s := by
  have h : P.bind (kw w) f s = some (a, r) := h
  unfold P.bind at h
  cases hx : kw w s with
  | none => rw [hx] at h; cases h
  | some x =>
    rw [hx] at h
    exact Less.trans_left (hf x.2 a r h) (kw_less w hw s x.2 hx)

theorem litBind_less {α : Type} {w : Str} {f : Unit → P α} (hf : Suf (f ())) (hw : w ≠ []) {s : Str} {a : α} {r : Str}
    (h : (lit w >>= f) s = some (a, r)) : Less r s := by
  have h : P.bind (lit w) f s = some (a, r) := h
  unfold P.bind at h
  cases hx : lit w s with
  | none => rw [hx] at h; cases h
  | some x =>
    rw [hx] at h
    exact Less.trans_left (hf x.2 a r h) (lit_less w hw s x.2 hx)

theorem untilN_suffix (p : P Unit) (n : Nat) (s : Str) : untilN p n s <:+ s := by
  induction n generalizing s with
  | zero => exact List.suffix_refl _
  | succ n ih =>
    unfold untilN
    split
    · exact List.suffix_refl _
    · split
      · exact List.suffix_refl _
      · rename_i c r h
        have h2 := skip_suffix s
        rw [h] at h2
        exact (ih r).trans ((List.suffix_cons c r).trans h2)

/-- A section that succeeds takes text. -/
def Takes (p : Sec) : Prop := ∀ s e r, p s = (e, some r) → Less r s

theorem mapSnd {o : Option (Unit × Str)} {r : Str} (h : o.map Prod.snd = some r) : o = some ((), r) := by
  cases o with
  | none => cases h
  | some x => cases h; rfl

theorem takes_star (w : String) (hw : w.toList ≠ []) {p : P (Ev ℚ)} (hp : Suf p) (close : String) : Takes (secStar w p close) := by
  intro s e r h
  unfold secStar at h
  cases hx : kw w s with
  | none => rw [hx] at h; cases h
  | some x =>
    rw [hx] at h
    have h2 := mapSnd (Prod.mk.inj h).2
    exact Less.trans_left ((suf_kw close _ _ _ h2).trans (hp.starN _ _)) (kw_less w hw s x.2 hx)

theorem takes_skip (w : String) (hw : w.toList ≠ []) (close : String) : Takes (secSkip w close) := by
  intro s e r h
  unfold secSkip at h
  cases hx : kw w s with
  | none => rw [hx] at h; cases h
  | some x =>
    rw [hx] at h
    have h2 := mapSnd (Prod.mk.inj h).2
    exact Less.trans_left ((suf_kw close _ _ _ h2).trans (untilN_suffix _ _ _)) (kw_less w hw s x.2 hx)

theorem takes_board : Takes boardSection := by
  intro s e r h
  unfold boardSection at h
  cases hx : kw ".board_geom" s with
  | none => rw [hx] at h; cases h
  | some x =>
    rw [hx] at h
    dsimp only at h
    have hl := kw_less ".board_geom" (by decide) s x.2 hx
    cases hy : board x.2 with
    | none =>
      rw [hy] at h
      have h2 := mapSnd (Prod.mk.inj h).2
      exact Less.trans_left (suf_kw _ _ _ _ h2) hl
    | some y =>
      rw [hy] at h
      have h2 := mapSnd (Prod.mk.inj h).2
      exact Less.trans_left ((suf_kw _ _ _ _ h2).trans (suf_board _ _ _ hy)) hl

theorem takes_others : Takes (one others) := by
  intro s e r h
  unfold one at h
  cases hx : others s with
  | none => rw [hx] at h; cases h
  | some x =>
    rw [hx] at h; cases h
    have key : ∀ ps : List (P (Ev ℚ)), (∀ p ∈ ps, ∀ s a r, p s = some (a, r) → Less r s) → ∀ s a r, alts ps s = some (a, r) → Less r s := by
      intro ps
      induction ps with
      | nil => intro _ s a r h; cases h
      | cons p ps ih =>
        intro hp s a r h
        have h : P.or p (alts ps) s = some (a, r) := h
        unfold P.or at h
        cases hx : p s with
        | none => rw [hx] at h; exact ih (fun q hq => hp q (List.mem_cons_of_mem _ hq)) s a r h
        | some x => rw [hx] at h; cases h; exact hp p (by simp) s _ _ hx
    refine key _ ?_ s _ _ hx
    intro p hp s a r h
    simp only [List.mem_cons, List.not_mem_nil, or_false] at hp
    rcases hp with rfl | rfl | rfl | rfl <;> exact kwBind_less (by suf) (by decide) h

theorem takes_unknown : Takes (fun s => ([], (unknownSection s).map Prod.snd)) := by
  intro s e r h
  have h := mapSnd (Prod.mk.inj h).2
  unfold unknownSection at h
  cases hx : startTag s with
  | none => rw [hx] at h; cases h
  | some x =>
    rw [hx] at h
    dsimp only at h
    have h1 : Suf (do kw ".end"; lit x.1 : P Unit) := (suf_kw _).bind fun _ => suf_lit _
    refine Less.trans_left ((h1 _ _ _ h).trans (untilN_suffix _ _ _)) ?_
    have h4 : Suf ((fun s => match lit "end".toList s with | some _ => none | none => textNC s) : P Str) := by
      intro s a r h
      dsimp only at h
      cases hz : lit "end".toList s with
      | some z => rw [hz] at h; cases h
      | none => rw [hz] at h; exact suf_textNC s a r h
    unfold startTag at hx
    exact litBind_less h4 (by simp) hx

theorem textEOL_less (s r : Str) (h : textEOL s = some ((), r)) : Less r s := by
  unfold textEOL lex at h
  dsimp only at h
  split at h
  · cases h
  · have h1 := suf_eolR _ _ _ h
    have h2 : (skip s).dropWhile (fun c => !isEol c) <:+ skip s := List.dropWhile_suffix _
    have h3 := skip_suffix s
    refine ⟨(h1.trans h2).trans h3, ?_⟩
    have h4 : r.length < ((skip s).dropWhile (fun c => !isEol c)).length := by
      unfold eolR at h
      split at h <;> first | cases h | skip
      all_goals rename_i heq; rw [heq]; simp only [List.length_cons]; omega
    have := h2.length_le
    have := h3.length_le
    omega

theorem takes_alts (ps : List Sec) (h : ∀ p ∈ ps, Takes p) : Takes (secAlts ps) := by
  induction ps with
  | nil => intro s e r h; cases h
  | cons p ps ih =>
    intro s e r hx
    unfold secAlts at hx
    cases hp : p s with
    | mk e' o =>
      cases o with
      | some r' => rw [hp] at hx; cases hx; exact h p (by simp) s _ _ hp
      | none =>
        rw [hp] at hx
        have h2 := (Prod.mk.inj hx).2
        exact ih (fun q hq => h q (List.mem_cons_of_mem _ hq)) s (secAlts ps s).1 r (by rw [← h2])

theorem takes_step : Takes step := by
  refine takes_alts _ ?_
  have hev : ∀ {α : Type} (p : P α) (f : α → Ev ℚ), Suf p → Suf (p.ev f) := fun p f hp => hp.bind fun _ => Suf.pure _
  intro p hp
  simp only [sections, List.mem_append, List.mem_cons, List.not_mem_nil, or_false] at hp
  rcases hp with (rfl | rfl | rfl | rfl | rfl | rfl | rfl | rfl | rfl | rfl | rfl | rfl | rfl) | rfl | rfl
  · exact takes_others
  · exact takes_star _ (by decide) (hev _ _ suf_material) _
  · exact takes_skip _ (by decide) _
  · exact takes_star _ (by decide) (hev _ _ suf_layer) _
  · exact takes_star _ (by decide) (hev _ _ suf_shape) _
  · exact takes_board
  · exact takes_star _ (by decide) (hev _ _ suf_padstack) _
  · exact takes_star _ (by decide) (hev _ _ suf_via) _
  · exact takes_star _ (by decide) (hev _ _ suf_part) _
  · exact takes_skip _ (by decide) _
  · exact takes_skip _ (by decide) _
  · exact takes_star _ (by decide) (hev _ _ suf_net) _
  · exact takes_star _ (by decide) (hev _ _ suf_route) _
  · exact takes_unknown
  · intro s e r h; exact textEOL_less s r (mapSnd (Prod.mk.inj h).2)

/-! ### every text that ends with a line is accepted -/

theorem secAlts_last (ps : List Sec) (p : Sec) (s r : Str) (h : (p s).2 = some r) : ∃ r', (secAlts (ps ++ [p]) s).2 = some r' := by
  induction ps with
  | nil =>
    refine ⟨r, ?_⟩
    rw [List.nil_append]
    unfold secAlts
    cases hp : p s with
    | mk e o => rw [hp] at h; cases h; rfl
  | cons q ps ih =>
    obtain ⟨r', ih⟩ := ih
    rw [List.cons_append]
    unfold secAlts
    cases hq : q s with
    | mk e o =>
      cases o with
      | some r => exact ⟨r, rfl⟩
      | none => exact ⟨r', ih⟩

theorem dropWhile_last (f : Char → Bool) (s : Str) (c : Char) (h : s.getLast? = some c) (hc : f c = false) : ∃ d s', s.dropWhile f = d :: s' ∧ f d = false := by
  cases hd : s.dropWhile f with
  | nil =>
    exfalso
    rw [List.dropWhile_eq_nil_iff] at hd
    have := hd c (List.mem_of_getLast? h)
    rw [hc] at this; cases this
  | cons d s' =>
    refine ⟨d, s', rfl, ?_⟩
    have := List.head?_dropWhile_not f s
    rw [hd] at this
    simpa using this

theorem eolR_some (d : Char) (s : Str) (h : isEol d = true) : ∃ r, eolR (d :: s) = some ((), r) := by
  simp only [isEol, Bool.or_eq_true, beq_iff_eq] at h
  rcases h with rfl | rfl
  · exact ⟨s, rfl⟩
  · cases s with
    | nil => exact ⟨[], rfl⟩
    | cons e s =>
      by_cases he : e = '\n'
      · subst he; exact ⟨s, rfl⟩
      · refine ⟨e :: s, ?_⟩
        unfold eolR
        split
        · rename_i heq; exact absurd (List.cons.inj (List.cons.inj heq).2).1 he
        · rename_i heq; cases heq; rfl
        · rename_i heq; cases heq
        · rename_i h1 h2 h3; exact absurd rfl (h2 _)

theorem skip_head (s : Str) (c : Char) (t : Str) (h : skip s = c :: t) : isSpace c = false := by
  have key : ∀ b s c t, skipIn b s = c :: t → isSpace c = false := by
    intro b s
    induction s generalizing b with
    | nil => intro c t h; cases b <;> cases h
    | cons d s ih =>
      intro c t h
      cases b with
      | true => exact ih _ c t h
      | false =>
        unfold skipIn at h
        split at h
        · exact ih _ c t h
        · split at h
          · exact ih _ c t h
          · rename_i h1 _
            cases h
            simpa using h1
  exact key false s c t h

/-- At a text that does not end but with a line there is always something to take. -/
theorem step_takes (s : Str) (h : ∀ c, s.getLast? = some c → isEol c = true) (hs : skip s ≠ []) : ∃ r, (step s).2 = some r := by
  have hT : ∃ r, textEOL s = some ((), r) := by
    cases hk : skip s with
    | nil => exact absurd hk hs
    | cons c t =>
      have hsp := skip_head s c t hk
      have hne : isEol c = false := by
        cases he : isEol c with
        | false => rfl
        | true =>
          simp only [isEol, Bool.or_eq_true, beq_iff_eq] at he
          rcases he with rfl | rfl <;> cases hsp
      obtain ⟨p, hp⟩ := skip_suffix s
      obtain ⟨l, hl⟩ : ∃ l, (skip s).getLast? = some l := by
        rw [hk]; exact ⟨_, List.getLast?_eq_some_getLast (by simp)⟩
      have hl2 : s.getLast? = some l := by rw [← hp, List.getLast?_append, hl]; rfl
      obtain ⟨d, s', e1, e2⟩ := dropWhile_last (fun c => !isEol c) (skip s) l hl (by simp [h l hl2])
      obtain ⟨r, hr⟩ := eolR_some d s' (by simpa using e2)
      refine ⟨r, ?_⟩
      unfold textEOL lex
      dsimp only
      rw [e1, hr, if_neg]
      rw [hk]
      simp [List.takeWhile_cons, hne]
  obtain ⟨r, hr⟩ := hT
  have e : sections ++ [fun s => ([], (unknownSection s).map Prod.snd), fun s => ([], (textEOL s).map Prod.snd)] =
    (sections ++ [fun s => ([], (unknownSection s).map Prod.snd)]) ++ [fun s => ([], (textEOL s).map Prod.snd)] := by simp
  unfold step
  rw [e]
  exact secAlts_last _ _ s r (by dsimp only; rw [hr]; rfl)

theorem stepsN_all (n : Nat) (s : Str) (h : ∀ c, s.getLast? = some c → isEol c = true) (hn : s.length < n) : skip (stepsN n s).2 = [] := by
  induction n generalizing s with
  | zero => omega
  | succ n ih =>
    unfold stepsN
    cases hx : step s with
    | mk e o =>
      cases o with
      | none =>
        by_contra hc
        obtain ⟨r, hr⟩ := step_takes s h hc
        rw [hx] at hr; cases hr
      | some r =>
        have hl := takes_step s e r hx
        refine ih r (fun c hc => ?_) (by have := hl.2; omega)
        obtain ⟨p, hp⟩ := hl.1
        refine h c ?_
        rw [← hp, List.getLast?_append, hc]; rfl

end Ecad.XflP
