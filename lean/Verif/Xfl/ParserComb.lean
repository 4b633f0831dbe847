import Verif.Xfl.ParserBase
/-!
Sequences of parsers read sequences of tokens.
-/
namespace Ecad.XflP
open Ecad.Xfl

/-! ### texts of tokens -/

/-- tokens that begin after a gap -/
def Hd (ts : List Tok) : Prop := ∃ l ts', ts = .tok l :: ts'

/-- tokens before which a word or number ends -/
def Sp : List Tok → Prop
  | .raw _ :: _ => False
  | _ => True

theorem Hd.sp {ts : List Tok} (h : Hd ts) : Sp ts := by obtain ⟨l, ts', rfl⟩ := h; trivial
theorem Hd.app {ts : List Tok} (h : Hd ts) (us : List Tok) : Hd (ts ++ us) := by obtain ⟨l, ts', rfl⟩ := h; exact ⟨l, ts' ++ us, rfl⟩
theorem Hd.tok (l : Lit) (ts : List Tok) : Hd (.tok l :: ts) := ⟨l, ts, rfl⟩

theorem Gap.stop {g : Str} (h : Gap g) (h0 : g ≠ []) (r : Str) : Stop (g ++ r) := by
  cases h with
  | nil => exact absurd rfl h0
  | blank c s hc _ => exact Or.inr ⟨c, s ++ r, rfl, Or.inl hc⟩
  | comment t c s ht hc _ => exact Or.inr ⟨'#', (t ++ c :: s) ++ r, rfl, Or.inr rfl⟩

theorem Writes.ends {b : Bool} {ts : List Tok} {s : Str} (h : Writes b ts s) (hsp : Sp ts) {r : Str} (hr : Ends b ts r) : b = true ∨ Stop (s ++ r) := by
  cases h with
  | nil => exact hr
  | tok _ l ts g u s hg hb hu ho hs =>
    cases b with
    | true => exact Or.inl rfl
    | false => right; rw [List.append_assoc]; exact hg.stop (hb rfl) _
  | raw => exact absurd hsp id
  | sp _ ts n s hs => right; exact Or.inr ⟨' ', _, rfl, Or.inl (by simp [Blank])⟩
  | eol _ ts n e s he hs =>
    right
    cases n with
    | zero => rcases he with rfl | rfl <;> exact Or.inr ⟨_, _, rfl, Or.inl (by simp [Blank])⟩
    | succ n => exact Or.inr ⟨' ', _, rfl, Or.inl (by simp [Blank])⟩

theorem after_append (b : Bool) (ts us : List Tok) : after b (ts ++ us) = after (after b ts) us := by
  induction ts generalizing b with
  | nil => rfl
  | cons t ts ih => cases t <;> simp [after, ih]

theorem Writes.split {b : Bool} {ts us : List Tok} {s : Str} (h : Writes b (ts ++ us) s) :
    ∃ s1 s2, s = s1 ++ s2 ∧ Writes b ts s1 ∧ Writes (after b ts) us s2 := by
  induction ts generalizing b s with
  | nil => exact ⟨[], s, rfl, .nil b, h⟩
  | cons t ts ih =>
    rw [List.cons_append] at h
    cases h with
    | tok _ l _ g u s hg hb hu ho hs =>
      obtain ⟨s1, s2, rfl, h1, h2⟩ := ih hs
      exact ⟨g ++ (u ++ s1), s2, by simp, .tok b l ts g u s1 hg hb hu ho h1, h2⟩
    | raw _ l _ u s hu ho hs =>
      obtain ⟨s1, s2, rfl, h1, h2⟩ := ih hs
      exact ⟨u ++ s1, s2, by simp, .raw b l ts u s1 hu ho h1, h2⟩
    | sp _ _ n s hs =>
      obtain ⟨s1, s2, rfl, h1, h2⟩ := ih hs
      exact ⟨List.replicate (n + 1) ' ' ++ s1, s2, by simp, .sp b ts n s1 h1, h2⟩
    | eol _ _ n e s he hs =>
      obtain ⟨s1, s2, rfl, h1, h2⟩ := ih hs
      exact ⟨List.replicate n ' ' ++ (e ++ s1), s2, by simp, .eol b ts n e s1 he h1, h2⟩

theorem Writes.append {b : Bool} {ts us : List Tok} {s1 s2 : Str} (h1 : Writes b ts s1) (h2 : Writes (after b ts) us s2) :
    Writes b (ts ++ us) (s1 ++ s2) := by
  induction h1 with
  | nil => exact h2
  | tok b l ts g u s hg hb hu ho _ ih => have := Writes.tok b l _ g u _ hg hb hu ho (ih h2); simpa using this
  | raw b l ts u s hu ho _ ih => have := Writes.raw b l _ u _ hu ho (ih h2); simpa using this
  | sp b ts n s _ ih => have := Writes.sp b _ n _ (ih h2); simpa using this
  | eol b ts n e s he _ ih => have := Writes.eol b _ n e _ he (ih h2); simpa using this

/-- a text of a token after a gap is not empty -/
theorem Writes.ne_nil {b : Bool} {ts : List Tok} {s : Str} (h : Writes b ts s) (hd : Hd ts) : s ≠ [] := by
  obtain ⟨l, ts', rfl⟩ := hd
  cases h with
  | tok _ _ _ g u s hg hb hu ho hs =>
    obtain ⟨c, u', rfl, _⟩ := ho
    simp

/-! ### reading -/

/-- `p` reads the texts of `ts` as `a`, if the first character of what follows the gap after it satisfies `F`. -/
def Reads {α : Type} (F : Str → Prop) (p : P α) (ts : List Tok) (a : α) : Prop :=
  ∀ b s r, Writes b ts s → Ends b ts r → F (skip r) → p (s ++ r) = some (a, r)

/-- whatever follows -/
def Any : Str → Prop := fun _ => True

/-- `p` fails on the texts of `ts`. -/
def Fails {α : Type} (p : P α) (ts : List Tok) : Prop :=
  ∀ b s r, Writes b ts s → Ends b ts r → p (s ++ r) = none

/-- the first character of the texts of `ts` satisfies `F`. -/
def First (F : Str → Prop) (ts : List Tok) : Prop := ∃ l ts', ts = .tok l :: ts' ∧ ∀ u, l.Text u → Solid u → ∀ s, F (u ++ s)

theorem First.hd {F : Str → Prop} {ts : List Tok} (h : First F ts) : Hd ts := by
  obtain ⟨l, ts', rfl, _⟩ := h; exact Hd.tok l ts'

theorem First.app {F : Str → Prop} {ts : List Tok} (h : First F ts) (us : List Tok) : First F (ts ++ us) := by
  obtain ⟨l, ts', rfl, h⟩ := h; exact ⟨l, ts' ++ us, rfl, h⟩

theorem First.skip {F : Str → Prop} {ts : List Tok} (h : First F ts) {b : Bool} {s : Str} (hs : Writes b ts s) (r : Str) :
    F (skip (s ++ r)) := by
  obtain ⟨l, ts', rfl, h⟩ := h
  cases hs with
  | tok _ _ _ g u s hg hb hu ho hs =>
    rw [List.append_assoc, skip_gap hg, List.append_assoc, skip_solid ho]
    exact h u hu ho _

theorem Reads.any {α : Type} {F : Str → Prop} {p : P α} {ts : List Tok} {a : α} (h : Reads Any p ts a) : Reads F p ts a :=
  fun b s r hs hr _ => h b s r hs hr trivial

theorem Reads.mono {α : Type} {F G : Str → Prop} {p : P α} {ts : List Tok} {a : α} (h : Reads F p ts a) (hg : ∀ c, G c → F c) : Reads G p ts a :=
  fun b s r hs hr hc => h b s r hs hr (hg _ hc)

theorem bind_some {α β : Type} {p : P α} {f : α → P β} {s r : Str} {a : α} (h : p s = some (a, r)) : (p >>= f) s = f a r := by
  show P.bind p f s = _
  unfold P.bind
  rw [h]

theorem bind_none {α β : Type} {p : P α} {f : α → P β} {s : Str} (h : p s = none) : (p >>= f) s = none := by
  show P.bind p f s = _
  unfold P.bind
  rw [h]

theorem reads_pure {α : Type} (a : α) : Reads Any (pure a : P α) [] a := by
  intro b s r hs _ _
  cases hs
  rfl

theorem Reads.bindF {α β : Type} {G F : Str → Prop} {p : P α} {f : α → P β} {ts us : List Tok} {a : α} {c : β} (hp : Reads G p ts a)
    (hf : Reads F (f a) us c) (hu : Sp us) (hg : ∀ b s r, Writes b us s → F (skip r) → G (skip (s ++ r))) :
    Reads F (p >>= f) (ts ++ us) c := by
  intro b s r hs hr hF
  obtain ⟨s1, s2, rfl, h1, h2⟩ := hs.split
  unfold Ends at hr
  rw [after_append] at hr
  rw [List.append_assoc, bind_some (hp b s1 (s2 ++ r) h1 (h2.ends hu hr) (hg _ _ _ h2 hF))]
  exact hf _ s2 r h2 hr hF

theorem Reads.bind {α β : Type} {F : Str → Prop} {p : P α} {f : α → P β} {ts us : List Tok} {a : α} {c : β} (hp : Reads Any p ts a)
    (hf : Reads F (f a) us c) (hu : Sp us) : Reads F (p >>= f) (ts ++ us) c := hp.bindF hf hu (fun _ _ _ _ _ => trivial)

/-- The tokens of the first parser, one of the others -/
theorem Reads.one {α β : Type} {F : Str → Prop} {p : P α} {f : α → P β} {t : Tok} {us : List Tok} {a : α} {c : β} (hp : Reads Any p [t] a)
    (hf : Reads F (f a) us c) (hu : Sp us) : Reads F (p >>= f) (t :: us) c := hp.bind hf hu

/-- at the end -/
theorem Reads.last {α β : Type} {F : Str → Prop} {p : P α} {f : α → P β} {ts : List Tok} {a : α} {c : β} (hp : Reads F p ts a)
    (hf : ∀ r, f a r = some (c, r)) : Reads F (p >>= f) ts c := by
  intro b s r hs hr hF
  rw [bind_some (hp b s r hs hr hF), hf]

theorem Fails.bind {α β : Type} {p : P α} {ts : List Tok} (h : Fails p ts) (f : α → P β) : Fails (p >>= f) ts :=
  fun b s r hs hr => bind_none (h b s r hs hr)

theorem Reads.fails {α β : Type} {p : P α} {f : α → P β} {ts us : List Tok} {a : α} (hp : Reads Any p ts a) (hf : Fails (f a) us) (hu : Sp us) :
    Fails (p >>= f) (ts ++ us) := by
  intro b s r hs hr
  obtain ⟨s1, s2, rfl, h1, h2⟩ := hs.split
  unfold Ends at hr
  rw [after_append] at hr
  rw [List.append_assoc, bind_some (hp b s1 (s2 ++ r) h1 (h2.ends hu hr) trivial)]
  exact hf _ s2 r h2 hr

theorem Reads.fails1 {α β : Type} {p : P α} {f : α → P β} {t : Tok} {us : List Tok} {a : α} (hp : Reads Any p [t] a) (hf : Fails (f a) us) (hu : Sp us) :
    Fails (p >>= f) (t :: us) := hp.fails hf hu

theorem Fails.app {α : Type} {p : P α} {ts : List Tok} (h : Fails p ts) (us : List Tok) (hu : Sp us) : Fails p (ts ++ us) := by
  intro b s r hs hr
  obtain ⟨s1, s2, rfl, h1, h2⟩ := hs.split
  unfold Ends at hr
  rw [after_append] at hr
  rw [List.append_assoc]
  exact h b s1 _ h1 (h2.ends hu hr)

theorem Reads.orL {α : Type} {F : Str → Prop} {p q : P α} {ts : List Tok} {a : α} (h : Reads F p ts a) : Reads F (p.or q) ts a := by
  intro b s r hs hr hF
  unfold P.or
  rw [h b s r hs hr hF]

theorem Reads.orR {α : Type} {F : Str → Prop} {p q : P α} {ts : List Tok} {a : α} (hp : Fails p ts) (h : Reads F q ts a) :
    Reads F (p.or q) ts a := by
  intro b s r hs hr hF
  unfold P.or
  rw [hp b s r hs hr]
  exact h b s r hs hr hF

theorem Fails.or {α : Type} {p q : P α} {ts : List Tok} (hp : Fails p ts) (hq : Fails q ts) : Fails (p.or q) ts := by
  intro b s r hs hr
  unfold P.or
  rw [hp b s r hs hr]
  exact hq b s r hs hr

theorem Fails.alts {α : Type} {ps : List (P α)} {ts : List Tok} (h : ∀ p ∈ ps, Fails p ts) : Fails (alts ps) ts := by
  induction ps with
  | nil => intro b s r _ _; rfl
  | cons p ps ih => exact (h p (by simp)).or (ih (fun q hq => h q (List.mem_cons_of_mem _ hq)))

theorem Reads.opt {α : Type} {F : Str → Prop} {p : P α} {ts : List Tok} {a : α} (h : Reads F p ts a) : Reads F (opt p) ts (some a) := by
  intro b s r hs hr hF
  unfold XflP.opt
  rw [h b s r hs hr hF]

/-- an optional part that is not there, before other tokens -/
theorem Reads.noOpt {α β : Type} {F : Str → Prop} {p : P α} {f : Option α → P β} {ts : List Tok} {c : β} (hp : Fails p ts)
    (hf : Reads F (f none) ts c) : Reads F (XflP.opt p >>= f) ts c := by
  intro b s r hs hr hF
  have : XflP.opt p (s ++ r) = some (none, s ++ r) := by unfold XflP.opt; rw [hp b s r hs hr]
  rw [bind_some this]
  exact hf b s r hs hr hF

/-- A parser that fails when the first character after the gap satisfies `F` -/
def FailsAt {α : Type} (p : P α) (F : Str → Prop) : Prop := ∀ s, F (skip s) → p s = none

theorem FailsAt.bind {α β : Type} {p : P α} {F : Str → Prop} (h : FailsAt p F) (f : α → P β) : FailsAt (p >>= f) F :=
  fun s hs => bind_none (h s hs)

theorem FailsAt.or {α : Type} {p q : P α} {F : Str → Prop} (hp : FailsAt p F) (hq : FailsAt q F) : FailsAt (p.or q) F := by
  intro s hs; unfold P.or; rw [hp s hs]; exact hq s hs

theorem FailsAt.alts {α : Type} {ps : List (P α)} {F : Str → Prop} (h : ∀ p ∈ ps, FailsAt p F) : FailsAt (alts ps) F := by
  induction ps with
  | nil => intro s _; rfl
  | cons p ps ih => exact (h p (by simp)).or (ih (fun q hq => h q (List.mem_cons_of_mem _ hq)))

theorem FailsAt.fails {α : Type} {p : P α} {F : Str → Prop} (h : FailsAt p F) {ts : List Tok} (ht : First F ts) : Fails p ts :=
  fun _ s r hs _ => h _ (ht.skip hs r)

/-- an optional part that is not there, at the end -/
theorem FailsAt.noOpt {α : Type} {p : P α} {F : Str → Prop} (h : FailsAt p F) : Reads F (XflP.opt p) [] none := by
  intro b s r hs _ hF
  cases hs
  unfold XflP.opt
  rw [List.nil_append, h r hF]

/-! ### repetitions -/

/-- What follows each entry has the first character it needs. -/
def Foll {β : Type} (F : β → Str → Prop) (toks : β → List Tok) (us : List Tok) : List β → Prop
  | [] => True
  | x :: l => First (F x) (l.flatMap toks ++ us) ∧ Foll F toks us l

theorem foll_all {β : Type} {F : Str → Prop} {toks : β → List Tok} {us : List Tok} (l : List β) (hl : ∀ x ∈ l, First F (toks x))
    (hu : First F us) : Foll (fun _ => F) toks us l := by
  induction l with
  | nil => trivial
  | cons x l ih =>
    refine ⟨?_, ih (fun y hy => hl y (List.mem_cons_of_mem _ hy))⟩
    cases l with
    | nil => exact hu
    | cons y l => rw [List.flatMap_cons, List.append_assoc]; exact (hl y (by simp)).app _

theorem hd_flatMap {β : Type} {toks : β → List Tok} {us : List Tok} (l : List β) (hl : ∀ x ∈ l, Hd (toks x)) (hu : Hd us) : Hd (l.flatMap toks ++ us) := by
  cases l with
  | nil => exact hu
  | cons y l => rw [List.flatMap_cons, List.append_assoc]; exact (hl y (by simp)).app _

theorem starN_reads {α β : Type} {F : β → Str → Prop} {p : P α} {toks : β → List Tok} {val : β → α} {us : List Tok} (l : List β)
    (hl : ∀ x ∈ l, Reads (F x) p (toks x) (val x) ∧ Hd (toks x)) (hf : Foll F toks us l) (hu : Hd us) (hp : Fails p us)
    {b : Bool} {s r : Str} (hs : Writes b (l.flatMap toks ++ us) s) (hr : Ends b (l.flatMap toks ++ us) r) {n : Nat} (hn : l.length < n) :
    ∃ s2, starN p n (s ++ r) = (l.map val, s2 ++ r) ∧ Writes (after b (l.flatMap toks)) us s2 ∧ Ends (after b (l.flatMap toks)) us r := by
  induction l generalizing b s n with
  | nil =>
    cases n with
    | zero => omega
    | succ n => exact ⟨s, by simp [starN, hp b s r hs hr], hs, hr⟩
  | cons x l ih =>
    cases n with
    | zero => omega
    | succ n =>
      rw [List.flatMap_cons, List.append_assoc] at hs
      unfold Ends at hr
      rw [List.flatMap_cons, List.append_assoc, after_append] at hr
      obtain ⟨s1, s2, rfl, h1, h2⟩ := hs.split
      have hx := hl x (by simp)
      have hh := hd_flatMap l (fun y hy => (hl y (List.mem_cons_of_mem _ hy)).2) hu
      have e := hx.1 b s1 (s2 ++ r) h1 (h2.ends hh.sp hr) (hf.1.skip h2 r)
      obtain ⟨s3, e2, h3, h4⟩ := ih (fun y hy => hl y (List.mem_cons_of_mem _ hy)) hf.2 h2 hr (n := n) (by simp at hn; omega)
      refine ⟨s3, ?_, ?_, ?_⟩
      · rw [List.append_assoc]
        simp only [starN, e, e2, List.map_cons]
      · rw [List.flatMap_cons, after_append]; exact h3
      · rw [List.flatMap_cons, after_append]; exact h4

theorem Writes.length_le {β : Type} {toks : β → List Tok} (l : List β) (hl : ∀ x ∈ l, Hd (toks x)) {b : Bool} {s : Str}
    (hs : Writes b (l.flatMap toks) s) : l.length ≤ s.length := by
  induction l generalizing b s with
  | nil => simp
  | cons x l ih =>
    rw [List.flatMap_cons] at hs
    obtain ⟨s1, s2, rfl, h1, h2⟩ := hs.split
    have := ih (fun y hy => hl y (List.mem_cons_of_mem _ hy)) h2
    have h3 := h1.ne_nil (hl x (by simp))
    have : 0 < s1.length := List.length_pos_iff.2 h3
    simp only [List.length_cons, List.length_append]; omega

theorem Writes.length_le' {β : Type} {toks : β → List Tok} (l : List β) (hl : ∀ x ∈ l, Hd (toks x)) {us : List Tok} {b : Bool} {s : Str}
    (hs : Writes b (l.flatMap toks ++ us) s) : l.length ≤ s.length := by
  obtain ⟨s1, s2, rfl, h1, _⟩ := hs.split
  have := h1.length_le l hl
  simp only [List.length_append]; omega

/-- Entries of a repetition and what is read after them -/
theorem Reads.starX {α β γ : Type} {F : Str → Prop} {G : β → Str → Prop} {p : P α} {f : List α → P γ} {toks : β → List Tok}
    {val : β → α} (l : List β) (hl : ∀ x ∈ l, Reads (G x) p (toks x) (val x) ∧ Hd (toks x)) {us : List Tok} {c : γ} (hG : Foll G toks us l)
    (hu : Hd us) (hp : Fails p us) (hf : Reads F (f (l.map val)) us c) : Reads F (XflP.star p >>= f) (l.flatMap toks ++ us) c := by
  intro b s r hs hr hF
  have hlen := hs.length_le' l (fun x hx => (hl x hx).2)
  obtain ⟨s2, e, h2, h3⟩ := starN_reads (n := (s ++ r).length + 1) l hl hG hu hp hs hr (by simp only [List.length_append]; omega)
  have e2 : XflP.star p (s ++ r) = some (l.map val, s2 ++ r) := by unfold XflP.star; rw [e]
  rw [bind_some e2]
  exact hf _ s2 r h2 h3 hF

/-- what is read after the repetition fails -/
theorem Fails.starX {α β γ : Type} {G : β → Str → Prop} {p : P α} {f : List α → P γ} {toks : β → List Tok}
    {val : β → α} (l : List β) (hl : ∀ x ∈ l, Reads (G x) p (toks x) (val x) ∧ Hd (toks x)) {us : List Tok} (hG : Foll G toks us l)
    (hu : Hd us) (hp : Fails p us) (hf : Fails (f (l.map val)) us) : Fails (XflP.star p >>= f) (l.flatMap toks ++ us) := by
  intro b s r hs hr
  have hlen := hs.length_le' l (fun x hx => (hl x hx).2)
  obtain ⟨s2, e, h2, h3⟩ := starN_reads (n := (s ++ r).length + 1) l hl hG hu hp hs hr (by simp only [List.length_append]; omega)
  have e2 : XflP.star p (s ++ r) = some (l.map val, s2 ++ r) := by unfold XflP.star; rw [e]
  rw [bind_some e2]
  exact hf _ s2 r h2 h3

theorem foll_append {β : Type} {F : β → Str → Prop} {toks : β → List Tok} {us : List Tok} (l1 l2 : List β)
    (h1 : Foll F toks (l2.flatMap toks ++ us) l1) (h2 : Foll F toks us l2) : Foll F toks us (l1 ++ l2) := by
  induction l1 with
  | nil => exact h2
  | cons x l1 ih =>
    refine ⟨?_, ih h1.2⟩
    have := h1.1
    rwa [← List.append_assoc, ← List.flatMap_append] at this

/-- as above, with one condition on what follows -/
theorem Reads.star {α β γ : Type} {F G : Str → Prop} {p : P α} {f : List α → P γ} {toks : β → List Tok} {val : β → α} (l : List β)
    (hl : ∀ x ∈ l, Reads G p (toks x) (val x) ∧ First G (toks x)) {us : List Tok} {c : γ} (hp : Fails p us) (hG : First G us)
    (hf : Reads F (f (l.map val)) us c) : Reads F (XflP.star p >>= f) (l.flatMap toks ++ us) c :=
  Reads.starX (G := fun _ => G) l (fun x hx => ⟨(hl x hx).1, (hl x hx).2.hd⟩) (foll_all l (fun x hx => (hl x hx).2) hG) hG.hd hp hf

/-! ### parsers of tokens -/

theorem reads_lex {α : Type} {F : Str → Prop} {p : P α} {l : Lit} {ts : List Tok} {a : α} (h : Reads F p (.raw l :: ts) a) :
    Reads F (lex p) (.tok l :: ts) a := by
  intro b s r hs hr hF
  cases hs with
  | tok _ _ _ g u s hg hb hu ho hs =>
    rw [List.append_assoc, List.append_assoc, lex_tok p hg ho, ← List.append_assoc]
    exact h b (u ++ s) r (.raw b l ts u s hu ho hs) hr hF

theorem fails_lex {α : Type} {p : P α} {l : Lit} {ts : List Tok} (h : Fails p (.raw l :: ts)) : Fails (lex p) (.tok l :: ts) := by
  intro b s r hs hr
  cases hs with
  | tok _ _ _ g u s hg hb hu ho hs =>
    rw [List.append_assoc, List.append_assoc, lex_tok p hg ho, ← List.append_assoc]
    exact h b (u ++ s) r (.raw b l ts u s hu ho hs) hr

/-- one token without a gap -/
theorem reads_raw {α : Type} {p : P α} {l : Lit} {a : α} (h : ∀ u r, l.Text u → Stop r → p (u ++ r) = some (a, r)) : Reads Any p [.raw l] a := by
  intro b s r hs hr _
  cases hs with
  | raw _ _ _ u s hu ho hs =>
    cases hs
    rw [List.append_nil]
    rcases hr with hr | hr
    · cases hr
    · exact h u r hu hr

theorem fails_raw {α : Type} {p : P α} {l : Lit} (h : ∀ u r, l.Text u → Solid u → Stop r → p (u ++ r) = none) : Fails p [.raw l] := by
  intro b s r hs hr
  cases hs with
  | raw _ _ _ u s hu ho hs =>
    cases hs
    rw [List.append_nil]
    rcases hr with hr | hr
    · cases hr
    · exact h u r hu ho hr

theorem reads_intR (v : Int) : Reads Any intR [.raw (.int v)] v := reads_raw fun _ _ hu hr => intR_text hu hr
theorem reads_doubleR (q : ℚ) : Reads Any doubleR [.raw (.num q)] q := reads_raw fun _ _ hu hr => doubleR_text hu hr
theorem reads_int (v : Int) : Reads Any int_ [I v] v := reads_lex (reads_intR v)
theorem reads_num (q : ℚ) : Reads Any double_ [N q] q := reads_lex (reads_doubleR q)

theorem reads_kw (w : String) : Reads Any (kw w) [W w] () := by
  refine reads_lex (reads_raw fun u r hu _ => ?_)
  rw [strip_text _ _ _ _ hu]; rfl

theorem reads_lit (t : Str) : Reads Any (lit t) [S t] () := by
  refine reads_lex (reads_raw fun u r hu _ => ?_)
  have : u = t := hu
  subst this
  rw [strip_text _ _ _ _ rfl]; rfl

theorem isNC_iff (c : Char) : isNC c = true ↔ c.isAlphanum = true ∨ c = '_' ∨ c = '.' ∨ c = '-' := by
  simp [isNC, or_assoc]

theorem reads_many1 (t : Str) (h : Name t) : Reads Any (many1 isNC) [.raw (.str t)] t := by
  refine reads_raw fun u r hu hr => ?_
  have : u = t := hu
  subst this
  have htw := takeWhile_stop hr isNC nc_stop u (fun c hc => (isNC_iff c).2 (h.2 c hc))
  unfold many1
  rw [htw.1, htw.2, if_neg h.1]

theorem reads_textNC (t : Str) (h : Name t) : Reads Any textNC [S t] t := reads_lex (reads_many1 t h)

theorem reads_text (t : Str) (h : Ident t) : Reads Any text [S t] t := by
  refine reads_lex (reads_raw fun u r hu hr => ?_)
  have : u = t := hu
  subst this
  obtain ⟨c, t', rfl, hc, ht⟩ := h
  have htw := takeWhile_stop hr isTail tail_stop t' (fun d hd => by
    rcases ht d hd with h | h | h <;> simp [isTail, h])
  have hh : isHead c = true := by rcases hc with h | h <;> simp [isHead, h]
  simp only [List.cons_append, htw.1, htw.2, hh, if_true]

theorem reads_textDQ (t : Str) (h : Quoted t) : Reads Any textDQ [Q t] t := by
  refine reads_lex (reads_raw fun u r hu hr => ?_)
  have : u = '"' :: (t ++ ['"']) := hu
  subst this
  have htw := takeWhile_head (r := ['"'] ++ r) (fun c => c != '"') (fun c hc => by simp at hc; simp [← hc]) t
    (fun c hc => by have : c ≠ '"' := fun e => h.2 (e ▸ hc); simp [this])
  simp only [List.singleton_append] at htw
  simp only [List.cons_append, List.append_assoc, List.nil_append, htw.1, htw.2]
  simp [h.1]

theorem reads_chr (f : Char → Bool) (c : Char) (h : f c = true) : Reads Any (chr f) [S [c]] c := by
  refine reads_lex (reads_raw fun u r hu hr => ?_)
  have : u = [c] := hu
  subst this
  simp [h]

/-! ### failing on first characters -/

theorem failsAt_chr (f : Char → Bool) : FailsAt (chr f) (fun c => ∀ d, c.head? = some d → f d = false) := by
  intro s hs
  unfold chr lex
  cases h : skip s with
  | nil => rfl
  | cons c r => rw [h] at hs; simp [hs c rfl]

/-- characters numbers begin with -/
def numStart (c : Char) : Bool := c.isDigit || c == '+' || c == '-' || c == '.'

/-- not the beginning of a number -/
def NoNum : Str → Prop := fun c => ∀ d, c.head? = some d → numStart d = false

theorem sign_noNum {c : Char} (h : numStart c = false) (s : Str) : sign (c :: s) = (false, c :: s) := by
  simp only [numStart, Bool.or_eq_false_iff, beq_eq_false_iff_ne] at h
  unfold sign
  split <;> simp_all

theorem failsAt_int : FailsAt int_ NoNum := by
  intro s hs
  unfold int_ lex intR
  cases h : skip s with
  | nil => rfl
  | cons c r =>
    rw [h] at hs
    have hc := hs c rfl
    have hd : c.isDigit = false := by simp [numStart] at hc; exact hc.1.1.1
    simp only [sign_noNum hc, List.takeWhile_cons, hd]
    rfl

theorem failsAt_num : FailsAt double_ NoNum := by
  intro s hs
  unfold double_ lex doubleR
  cases h : skip s with
  | nil => rfl
  | cons c r =>
    rw [h] at hs
    have hc := hs c rfl
    have hd : c.isDigit = false := by simp [numStart] at hc; exact hc.1.1.1
    have hp : c ≠ '.' := by simp [numStart] at hc; exact hc.2
    have e : frac (c :: r) = (none, c :: r) := by
      unfold frac
      split
      · rename_i heq
        exact absurd (List.cons.inj heq).1 hp
      · rfl
    simp only [sign_noNum hc, List.takeWhile_cons, List.dropWhile_cons, hd]
    simp [e]

theorem failsAt_kw (w : String) {c : Char} {w' : Str} (hw : w.toList = c :: w') : FailsAt (kw w) (fun o => ∀ d, o.head? = some d → c.toLower ≠ d.toLower) := by
  intro s hs
  unfold kw lex
  rw [hw]
  cases h : skip s with
  | nil => rfl
  | cons d r =>
    rw [h] at hs
    simp [strip, hs d rfl]

theorem failsAt_lit {c : Char} (w : Str) : FailsAt (lit (c :: w)) (fun o => o.head? ≠ some c) := by
  intro s hs
  unfold lit lex
  cases h : skip s with
  | nil => rfl
  | cons d r =>
    rw [h] at hs
    have : ¬ c = d := fun e => hs (by rw [e]; rfl)
    simp [strip, this]

theorem failsAt_textNC : FailsAt textNC (fun o => ∀ d, o.head? = some d → isNC d = false) := by
  intro s hs
  unfold textNC lex many1
  cases h : skip s with
  | nil => rfl
  | cons d r => rw [h] at hs; simp [List.takeWhile_cons, hs d rfl]

theorem failsAt_textDQ : FailsAt textDQ (fun o => o.head? ≠ some '"') := by
  intro s hs
  unfold textDQ lex
  cases h : skip s with
  | nil => rfl
  | cons d r =>
    rw [h] at hs
    have hd : d ≠ '"' := fun e => hs (by rw [e]; rfl)
    dsimp only
    split
    · rename_i heq; exact absurd (List.cons.inj heq).1 hd
    · rfl

theorem FailsAt.mono {α : Type} {p : P α} {F G : Str → Prop} (h : FailsAt p F) (hg : ∀ c, G c → F c) : FailsAt p G := fun s hs => h s (hg _ hs)

/-- a keyword that differs from the word -/
theorem fails_kw {k w : String} (h : differ Char.toLower k.toList w.toList = true) : Fails (kw k) [W w] := by
  refine fails_lex (fails_raw fun u r hu _ _ => ?_)
  rw [strip_differ _ _ _ _ _ hu h]; rfl

/-! ### first characters of tokens -/

theorem first_str {F : Str → Prop} (c : Char) (t : Str) (ts : List Tok) (h : ∀ s, F (c :: s)) : First F (S (c :: t) :: ts) :=
  ⟨_, ts, rfl, fun u hu _ => by have : u = c :: t := hu; subst this; exact fun s => h _⟩

theorem first_q {F : Str → Prop} (t : Str) (ts : List Tok) (h : ∀ s, F ('"' :: s)) : First F (Q t :: ts) := first_str '"' _ ts h

theorem first_word {F : Str → Prop} (w : String) (c : Char) (w' : Str) (hw : w.toList = c :: w') (ts : List Tok)
    (h : ∀ d : Char, d.toLower = c.toLower → ∀ s, F (d :: s)) : First F (W w :: ts) :=
  ⟨_, ts, rfl, fun u hu ho => by
    obtain ⟨d, u', rfl, _⟩ := ho
    have hu : (d :: u').map Char.toLower = w.toList.map Char.toLower := hu
    rw [hw] at hu
    exact fun s => h d (List.cons.inj hu).1 _⟩

theorem digits_head {ds r : Str} (hd : ∀ d ∈ ds, d.isDigit = true) (h0 : ds ≠ []) : ∃ c, (ds ++ r).head? = some c ∧ numStart c = true := by
  cases ds with
  | nil => exact absurd rfl h0
  | cons d ds => exact ⟨d, rfl, by simp [numStart, hd d (by simp)]⟩

theorem signText_head {sg : Str} {k : Int} (h : SignText sg k) {r : Str} (hr : ∃ c, r.head? = some c ∧ numStart c = true) :
    ∃ c, (sg ++ r).head? = some c ∧ numStart c = true := by
  cases h with
  | none => exact hr
  | plus => exact ⟨'+', rfl, rfl⟩
  | minus => exact ⟨'-', rfl, rfl⟩

theorem intText_head {u : Str} {v : Int} (h : IntText u v) : ∃ c, u.head? = some c ∧ numStart c = true := by
  obtain ⟨sg, k, ds, hs, hd, rfl, _⟩ := h
  refine signText_head hs ?_
  have := digits_head (r := []) hd.2 hd.1
  simpa using this

theorem numText_head {u : Str} {q : ℚ} (h : NumText u q) : ∃ c, u.head? = some c ∧ numStart c = true := by
  obtain ⟨sg, k, ip, fs, fp, es, e, hs, hip, hf, h0, he, rfl, hq⟩ := h
  rw [List.append_assoc, List.append_assoc]
  refine signText_head hs ?_
  by_cases hi : ip = []
  · subst hi
    cases hf with
    | none => exact absurd rfl h0
    | some => exact ⟨'.', rfl, rfl⟩
  · exact digits_head hip hi

theorem first_int {F : Str → Prop} (v : Int) (ts : List Tok) (h : ∀ c, numStart c = true → ∀ s, F (c :: s)) : First F (I v :: ts) :=
  ⟨_, ts, rfl, fun u hu _ => by 
    obtain ⟨c, hc, hn⟩ := intText_head hu
    cases u with
    | nil => cases hc
    | cons d u => cases hc; exact fun s => h c hn _⟩

theorem first_num {F : Str → Prop} (q : ℚ) (ts : List Tok) (h : ∀ c, numStart c = true → ∀ s, F (c :: s)) : First F (N q :: ts) :=
  ⟨_, ts, rfl, fun u hu _ => by 
    obtain ⟨c, hc, hn⟩ := numText_head hu
    cases u with
    | nil => cases hc
    | cons d u => cases hc; exact fun s => h c hn _⟩

theorem first_any {l : Lit} (ts : List Tok) : First Any (.tok l :: ts) := ⟨l, ts, rfl, fun _ _ _ _ => trivial⟩

end Ecad.XflP
