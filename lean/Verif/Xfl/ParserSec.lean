import Verif.Xfl.ParserDef
import Verif.Xfl.ParserRouteProps
/-!
The sections of XFL files are read as written.
-/
namespace Ecad.XflP
open Ecad.Xfl

/-! ### files as lists of sections, without the parser -/

/-- A net with its numbers that are not kept -/
structure NetText where
  nums : Option (Int × Int × Int)
  nodes : List (Option (Int × Int) × PNode ℚ)
  net : PNet ℚ

/-- Sections of a file -/
inductive PSec
  | version (a b : Int)
  | unit (t : Str)
  | designType (t : Str)
  | scale (q : ℚ)
  | material (l : List (Bool × PMat ℚ))
  | layer (l : List (PLay ℚ))
  | shape (l : List (Int × Geo ℚ))
  | board (g : Option (PBoard ℚ))
  | padstack (l : List (Int × List (PPad ℚ)))
  | via (l : List (PVia ℚ))
  | part (l : List (Str × List (Bool × PPin ℚ)))
  | net (l : List NetText)
  | route (l : List (Str × List (Extra × PObj ℚ)))
  | other (w : String) (l : List Str)

/-- The outline of the board -/
def boardToks : PBoard ℚ → List Tok
  | .polygon l => W "polygon" :: polyToks l
  | .composite l => W "composite" :: compToks l
  | .shape i p r m t => [W "shape", I i, N p.1, N p.2] ++ (if t then [N r, S [m]] else [S [m], N r])

/-- a section with entries -/
def starToks {α : Type} (open_ : String) (f : α → List Tok) (l : List α) (close : String) : List Tok := W open_ :: (l.flatMap f ++ [W close])

/-- How a section is written -/
def secToks : PSec → List Tok
  | .version a b => [W ".version", I a, I b]
  | .unit t => [W ".unit", S t]
  | .designType t => [W ".design_type", S t]
  | .scale q => [W ".scale", N q]
  | .material l => starToks ".material" (fun x => matToks x.1 x.2) l ".end material"
  | .layer l => starToks ".layer" layToks l ".end layer"
  | .shape l => starToks ".shape" shapeToks l ".end shape"
  | .board g => W ".board_geom" :: ((match g with | some g => boardToks g | none => []) ++ [W ".end board_geom"])
  | .padstack l => starToks ".padstack" pstkToks l ".end padstack"
  | .via l => starToks ".via" viaToks l ".end via"
  | .part l => starToks ".part" (fun x => partToks x.1 x.2) l ".end part"
  | .net l => starToks ".netlist" (fun x => netToks x.nums x.nodes x.net) l ".end netlist"
  | .route l => starToks ".route" (fun x => routeToks x.1 x.2) l ".end route"
  | .other w l => starToks ("." ++ w) (fun t => [S t]) l (".end " ++ w)

/-- What a section says -/
def secEvs : PSec → List (Ev ℚ)
  | .version a b => [.version a b]
  | .unit t => [.unit (t.map Char.toLower == "inch".toList)]
  | .designType t => [.designType t]
  | .scale q => [.scale q]
  | .material l => l.map fun x => .material x.2
  | .layer l => l.map .layer
  | .shape l => l.map .shape
  | .board g => (g.map Ev.board).toList
  | .padstack l => l.map .padstack
  | .via l => l.map .via
  | .part l => l.map fun x => .part (x.1, x.2.map Prod.snd)
  | .net l => l.map fun x => .net x.net
  | .route l => l.map fun x => .route (x.1, x.2.map Prod.snd)
  | .other _ _ => []

/-- Template shapes as the format has them, but no diamond and no arc of three points -/
def WfGeo : Geo ℚ → Prop
  | .composite l => WfComp l ∧ ∀ e m, Seg.arc 2 e m ∉ l
  | .diamond _ => False
  | _ => True

/-- Outlines as the format has them, but no arc of three points -/
def WfBoard : PBoard ℚ → Prop
  | .polygon _ => True
  | .composite l => WfComp l ∧ ∀ e m, Seg.arc 2 e m ∉ l
  | .shape _ _ _ m _ => m ∈ ['X', 'Y', 'N']

/-- Words of a section that is passed over: `.end` is not in them. -/
def Word (t : Str) : Prop := t ≠ [] ∧ (∀ c ∈ t, ¬ Blank c ∧ c ≠ '#') ∧ ¬ ".end".toList <:+: t.map Char.toLower

/-- Sections as the format has them, but for what is not read (see the refutations) -/
def WfSec : PSec → Prop
  | .version _ _ => True
  | .unit t => Ident t
  | .designType t => Ident t
  | .scale _ => True
  | .material l => ∀ x ∈ l, WfMat x.1 x.2
  | .layer l => ∀ x ∈ l, WfLay x
  | .shape l => ∀ x ∈ l, WfGeo x.2
  | .board g => ∀ x, g = some x → WfBoard x
  | .padstack _ => True
  | .via l => ∀ x ∈ l, WfVia x
  | .part l => ∀ x ∈ l, Name x.1 ∧ (∀ a ∈ x.2, WfPin a.1 a.2) ∧ PinsOk x.2
  | .net l => ∀ x ∈ l, WfNet x.net ∧ x.nodes.map Prod.snd = x.net.nodes
  | .route l => ∀ x ∈ l, Quoted x.1 ∧ (∀ a ∈ x.2, WfObj a.1 a.2) ∧ (∀ a ∈ x.2, ¬ BadObj a.2) ∧ DiesLast x.2
  | .other w l => w ∈ ["material_frequency", "component", "netattr"] ∧ ∀ t ∈ l, Word t

/-! ### sections -/

/-- `p` reads the texts of `ts`, calling `e`. -/
def SecReads (p : Sec) (ts : List Tok) (e : List (Ev ℚ)) : Prop := ∀ b s r, Writes b ts s → Ends b ts r → p (s ++ r) = (e, some r)

/-- `p` fails on the texts of `ts`, calling nothing. -/
def SecFails (p : Sec) (ts : List Tok) : Prop := ∀ b s r, Writes b ts s → Ends b ts r → p (s ++ r) = ([], none)

theorem secReads_one {p : P (Ev ℚ)} {ts : List Tok} {e : Ev ℚ} (h : Reads Any p ts e) : SecReads (one p) ts [e] := by
  intro b s r hs hr
  unfold one
  rw [h b s r hs hr trivial]

theorem secFails_one {p : P (Ev ℚ)} {ts : List Tok} (h : Fails p ts) : SecFails (one p) ts := by
  intro b s r hs hr
  unfold one
  rw [h b s r hs hr]

/-- the word of the section and what follows it -/
theorem kw_split (w : String) {ts : List Tok} (ht : Sp ts) {b : Bool} {s r : Str} (hs : Writes b (W w :: ts) s) (hr : Ends b (W w :: ts) r) :
    ∃ s', kw w (s ++ r) = some ((), s' ++ r) ∧ Writes false ts s' ∧ Ends false ts r := by
  have e1 : W w :: ts = [W w] ++ ts := rfl
  rw [e1] at hs
  obtain ⟨s1, s2, rfl, h1, h2⟩ := hs.split
  have hr : Ends false ts r := hr
  refine ⟨s2, ?_, h2, hr⟩
  rw [List.append_assoc]
  exact reads_kw w b s1 (s2 ++ r) h1 (h2.ends ht hr) trivial

theorem secReads_star {α : Type} {open_ close : String} {item : P (Ev ℚ)} {f : α → List Tok} {G : α → Str → Prop} {ev : α → Ev ℚ} (l : List α)
    (hl : ∀ x ∈ l, Reads (G x) item (f x) (ev x) ∧ Hd (f x)) (hG : Foll G f [W close] l) (hc : Fails item [W close]) :
    SecReads (secStar open_ item close) (starToks open_ f l close) (l.map ev) := by
  intro b s r hs hr
  have hh := hd_flatMap (us := [W close]) l (fun x hx => (hl x hx).2) (Hd.tok _ _)
  obtain ⟨s', e, h1, h2⟩ := kw_split open_ hh.sp hs hr
  have hlen := h1.length_le' l (fun x hx => (hl x hx).2)
  obtain ⟨s2, e2, h3, h4⟩ := starN_reads (n := (s' ++ r).length + 1) l hl hG (Hd.tok _ _) hc h1 h2 (by simp only [List.length_append]; omega)
  have e3 := reads_kw close _ s2 r h3 h4 trivial
  unfold secStar
  rw [e]
  simp only [e2, e3, Option.map_some]

theorem secFails_star {open_ close w : String} {item : P (Ev ℚ)} (h : differ Char.toLower open_.toList w.toList = true) (ts : List Tok) (ht : Sp ts) :
    SecFails (secStar open_ item close) (W w :: ts) := by
  intro b s r hs hr
  unfold secStar
  rw [((fails_kw h).app ts ht) b s r hs hr]

theorem secFails_skip {open_ close w : String} (h : differ Char.toLower open_.toList w.toList = true) (ts : List Tok) (ht : Sp ts) :
    SecFails (secSkip open_ close) (W w :: ts) := by
  intro b s r hs hr
  unfold secSkip
  rw [((fails_kw h).app ts ht) b s r hs hr]

theorem secFails_board {w : String} (h : differ Char.toLower ".board_geom".toList w.toList = true) (ts : List Tok) (ht : Sp ts) :
    SecFails boardSection (W w :: ts) := by
  intro b s r hs hr
  unfold boardSection
  rw [((fails_kw h).app ts ht) b s r hs hr]

theorem secAlts_reads (ps : List Sec) (p : Sec) (qs : List Sec) {ts : List Tok} {e : List (Ev ℚ)} (hp : ∀ q ∈ ps, SecFails q ts)
    (h : SecReads p ts e) : SecReads (secAlts (ps ++ p :: qs)) ts e := by
  induction ps with
  | nil =>
    intro b s r hs hr
    rw [List.nil_append]
    unfold secAlts
    rw [h b s r hs hr]
  | cons q ps ih =>
    intro b s r hs hr
    have i := ih (fun x hx => hp x (List.mem_cons_of_mem _ hx)) b s r hs hr
    rw [List.cons_append]
    unfold secAlts
    rw [hp q (by simp) b s r hs hr]
    simp only [i, List.nil_append]

/-! ### the ends of sections -/

theorem fails_end_mat : Fails (material.ev .material) [W ".end material"] := by
  refine Fails.bind (Fails.or ?_ ?_) _
  · exact failsW (by decide) _ _ trivial
  · exact failsW (by decide) _ _ trivial

theorem fails_end_dq {α : Type} (f : Str → P α) (w : String) {w' : Str} (hw : w.toList = '.' :: 'e' :: w') : Fails (textDQ >>= f) [W w] :=
  (failsAt_textDQ.bind _).fails (first_end w hw [] fun d s _ h => by cases h)

theorem fails_end_int {α : Type} (f : Int → P α) (w : String) {w' : Str} (hw : w.toList = '.' :: 'e' :: w') : Fails (int_ >>= f) [W w] :=
  (failsAt_intF.bind _).fails (first_end w hw [] fun d s _ => dot_int _)

/-- `.end` is a name -/
theorem nc_end {u r : Str} {w : String} {w' : Str} {x : Char} (hw : w.toList = ".end ".toList ++ x :: w') (hu : (Lit.word w).Text u) :
    ∃ n y u', many1 isNC (u ++ r) = some (n, ' ' :: y :: u') ∧ y.toLower = x.toLower := by
  have hu : u.map Char.toLower = w.toList.map Char.toLower := hu
  rw [hw] at hu
  match u, hu with
  | [], hu => cases hu
  | [_], hu => simp at hu
  | [_, _], hu => simp at hu
  | [_, _, _], hu => simp at hu
  | [_, _, _, _], hu => simp at hu
  | [_, _, _, _, _], hu => simp at hu
  | a :: b :: c :: d :: e :: y :: u', hu =>
    have hu : [a.toLower, b.toLower, c.toLower, d.toLower, e.toLower] ++ y.toLower :: u'.map Char.toLower =
      ['.', 'e', 'n', 'd', ' '] ++ x.toLower :: w'.map Char.toLower := hu
    simp only [List.cons_append, List.nil_append, List.cons.injEq] at hu
    obtain ⟨ha, hb, hc, hd, he, hy, _⟩ := hu
    have ha : a = '.' := toLower_eq (by decide) ha
    have he : e = ' ' := toLower_eq (by decide) he
    have nc : ∀ p q : Char, p.toLower = q → isNC q = true → isNC p = true := by
      intro p q hp hq
      unfold Char.toLower at hp
      split at hp
      · rename_i hu
        have : p.isUpper = true := by simp only [Char.isUpper, ge_iff_le, Bool.and_eq_true, decide_eq_true_eq]; exact hu
        simp [isNC, Char.isAlphanum, Char.isAlpha, this]
      · rw [hp]; exact hq
    have nb := nc b _ hb rfl
    have ncc := nc c _ hc rfl
    have nd := nc d _ hd rfl
    subst ha he
    refine ⟨['.', b, c, d], y, u' ++ r, ?_, hy⟩
    have n1 : isNC '.' = true := rfl
    have n2 : isNC ' ' = false := rfl
    simp [many1, List.takeWhile_cons, List.dropWhile_cons, n1, n2, nb, ncc, nd]

theorem fails_end_via : Fails (via.ev .via) [W ".end via"] := by
  refine Fails.bind (fails_lex (fails_raw fun u r hu _ _ => ?_)) _
  obtain ⟨n, y, u', e, hy⟩ := nc_end (r := r) (x := 'v') (w' := "ia".toList) rfl hu
  rw [bind_some e]
  have hyn : numStart y = false := noNum_word hy (by decide)
  have hys : y ≠ ' ' := by rintro rfl; revert hyn hy; decide
  have k : blanks1 (' ' :: y :: u') = some ((), y :: u') := by
    have := dropWhile_blanks 1 y u' hys
    unfold blanks1 many1
    show Option.map _ (if List.takeWhile _ (List.replicate 1 ' ' ++ y :: u') = [] then _ else some (_, List.dropWhile _ (List.replicate 1 ' ' ++ y :: u'))) = _
    rw [this.1, this.2, if_neg (by simp)]
    rfl
  rw [bind_some k]
  exact bind_none (noNum_int y u' hyn)

theorem fails_end_part : Fails (part.ev .part) [W ".end part"] := by
  refine Fails.bind ?_ _
  intro b s r hs hr
  cases hs with
  | tok _ _ _ g u s hg hb hu ho hs =>
    cases hs
    obtain ⟨n, y, u', e, hy⟩ := nc_end (r := r) (x := 'p') (w' := "art".toList) rfl hu
    have e1 : textNC (g ++ (u ++ []) ++ r) = some (n, ' ' :: y :: u') := by
      unfold textNC
      rw [List.append_nil, List.append_assoc, lex_tok _ hg ho]
      exact e
    show (textNC >>= _) _ = none
    rw [bind_some e1]
    have hsk : skip (' ' :: y :: u') = y :: u' := by
      have : Solid (y :: u') := by
        refine ⟨y, u', rfl, fun hb => ?_, ?_⟩
        · have key : ∀ c ∈ [' ', '\t', '\n', '\x0b', '\x0c', '\r'], c.toLower ≠ 'p'.toLower := by decide
          exact key y hb hy
        · rintro rfl; revert hy; decide
      have h2 := skip_gap (g := [' ']) (.blank ' ' [] (by simp [Blank]) .nil) (y :: u')
      have h3 := skip_solid this []
      rw [List.append_nil] at h3
      exact h2.trans h3
    have hch : chr (fun c => ['R', 'C', 'D'].contains c) (' ' :: y :: u') = none := by
      refine failsAt_chr _ _ ?_
      rw [hsk]
      intro d hd
      cases hd
      cases hc : ['R', 'C', 'D'].contains y with
      | false => rfl
      | true =>
        have key : ∀ c ∈ ['R', 'C', 'D'], c.toLower ≠ 'p'.toLower := by decide
        exact absurd hy (key y (List.contains_iff_mem.1 hc))
    have hop : opt partTail (' ' :: y :: u') = some (none, ' ' :: y :: u') := by
      unfold opt
      have : partTail (' ' :: y :: u') = none := bind_none hch
      rw [this]
    rw [bind_some hop]
    refine bind_none (failsAt_lit [] _ ?_)
    rw [hsk]
    intro h
    cases h
    revert hy; decide

/-! ### known sections -/

theorem good_comp {l : List (Seg ℚ)} (h : WfComp l ∧ ∀ e m, Seg.arc 2 e m ∉ l) : GoodComp l := by
  match l, h with
  | .pt p :: l, ⟨h1, h2⟩ =>
    intro x hx
    have := h1 x hx
    cases x with
    | pt => trivial
    | arc t e m =>
      rcases this with h | h | h
      · exact Or.inl h
      · exact Or.inr h
      · subst h; exact absurd (List.mem_cons_of_mem _ hx) (h2 e m)

theorem good_geo {g : Geo ℚ} (h : WfGeo g) : GoodGeo g := by
  cases g with
  | composite l => exact good_comp h
  | diamond => exact h
  | _ => trivial

/-- words of the sections before the word -/
def before (w : String) (ws : List String) : Bool := ws.all fun k => differ Char.toLower k.toList w.toList

theorem fails_others (w : String) (ts : List Tok) (ht : Sp ts) (h : before w [".version", ".unit", ".design_type", ".scale"] = true) :
    Fails others (W w :: ts) := by
  simp only [before, List.all_cons, List.all_nil, Bool.and_true, Bool.and_eq_true] at h
  obtain ⟨h1, h2, h3, h4⟩ := h
  refine Fails.alts ?_
  intro p hp
  simp only [List.mem_cons, List.not_mem_nil, or_false] at hp
  rcases hp with rfl | rfl | rfl | rfl
  · exact failsW h1 _ ts ht
  · exact failsW h2 _ ts ht
  · exact failsW h3 _ ts ht
  · exact failsW h4 _ ts ht

/-- the words of the sections in their order, but the first -/
def secWords : List String := [".material", ".material_frequency", ".layer", ".shape", ".board_geom", ".padstack", ".via", ".part", ".component", ".netattr", ".netlist", ".route"]

theorem fails_sections (w : String) (ts : List Tok) (ht : Sp ts) (h0 : before w [".version", ".unit", ".design_type", ".scale"] = true) (n : Nat)
    (h : before w (secWords.take n) = true) : ∀ p ∈ sections.take (n + 1), SecFails p (W w :: ts) := by
  have key : ∀ i, i < n → ∀ k, secWords[i]? = some k → differ Char.toLower k.toList w.toList = true := by
    intro i hi k hk
    refine List.all_eq_true.1 h k ?_
    rw [List.mem_iff_getElem?]
    exact ⟨i, by rw [List.getElem?_take_of_lt hi]; exact hk⟩
  intro p hp
  obtain ⟨i, hi⟩ := List.mem_iff_getElem?.1 hp
  have hin : i < n + 1 := by
    by_contra hc
    rw [List.getElem?_eq_none (by simp; omega)] at hi
    cases hi
  rw [List.getElem?_take_of_lt hin] at hi
  match i, hi, hin with
  | 0, hi, _ => cases hi; exact secFails_one (fails_others w ts ht h0)
  | 1, hi, hin => cases hi; exact secFails_star (key 0 (by omega) _ rfl) ts ht
  | 2, hi, hin => cases hi; exact secFails_skip (key 1 (by omega) _ rfl) ts ht
  | 3, hi, hin => cases hi; exact secFails_star (key 2 (by omega) _ rfl) ts ht
  | 4, hi, hin => cases hi; exact secFails_star (key 3 (by omega) _ rfl) ts ht
  | 5, hi, hin => cases hi; exact secFails_board (key 4 (by omega) _ rfl) ts ht
  | 6, hi, hin => cases hi; exact secFails_star (key 5 (by omega) _ rfl) ts ht
  | 7, hi, hin => cases hi; exact secFails_star (key 6 (by omega) _ rfl) ts ht
  | 8, hi, hin => cases hi; exact secFails_star (key 7 (by omega) _ rfl) ts ht
  | 9, hi, hin => cases hi; exact secFails_skip (key 8 (by omega) _ rfl) ts ht
  | 10, hi, hin => cases hi; exact secFails_skip (key 9 (by omega) _ rfl) ts ht
  | 11, hi, hin => cases hi; exact secFails_star (key 10 (by omega) _ rfl) ts ht
  | 12, hi, hin => cases hi; exact secFails_star (key 11 (by omega) _ rfl) ts ht
  | i + 13, hi, hin => cases hi

theorem step_split (n : Nat) (p : Sec) (h : sections[n]? = some p) :
    ∃ qs, sections ++ [fun s => ([], (unknownSection s).map Prod.snd), fun s => ([], (textEOL s).map Prod.snd)] = sections.take n ++ p :: qs := by
  refine ⟨sections.drop (n + 1) ++ [fun s => ([], (unknownSection s).map Prod.snd), fun s => ([], (textEOL s).map Prod.snd)], ?_⟩
  rw [← List.cons_append, ← List.append_assoc]
  congr 1
  rw [List.getElem?_eq_some_iff] at h
  obtain ⟨hn, rfl⟩ := h
  simp

/-- the section at its place -/
theorem step_reads (n : Nat) (p : Sec) (h : sections[n + 1]? = some p) (w : String) (ts : List Tok) (ht : Sp ts) (e : List (Ev ℚ))
    (h0 : before w [".version", ".unit", ".design_type", ".scale"] = true) (hb : before w (secWords.take n) = true) (hp : SecReads p (W w :: ts) e) :
    SecReads step (W w :: ts) e := by
  obtain ⟨qs, e1⟩ := step_split (n + 1) p h
  unfold step
  rw [e1]
  exact secAlts_reads _ p qs (fails_sections w ts ht h0 n hb) hp

theorem step_others (ts : List Tok) (e : Ev ℚ) (h : Reads Any others ts e) : SecReads step ts [e] :=
  secAlts_reads [] (one others) _ (by simp) (secReads_one h)

theorem Reads.ev {α : Type} {F : Str → Prop} {p : P α} {ts : List Tok} {a : α} (h : Reads F p ts a) (f : α → Ev ℚ) : Reads F (p.ev f) ts (f a) :=
  h.last fun _ => rfl

theorem reads_board (g : PBoard ℚ) (h : WfBoard g) : Reads Any board (boardToks g) g := by
  cases g with
  | polygon l => exact Reads.alt [] _ (by simp) ((reads_kw _).one ((reads_polygon l).last fun _ => rfl) trivial)
  | composite l =>
    refine Reads.orR (failsW (by decide) _ _ trivial) (Reads.orL ((reads_kw _).one ((reads_composite l (good_comp h)).last fun _ => rfl) ?_))
    exact (Hd.tok _ _).sp
  | shape i p r m t =>
    have hm : (fun c => ['X', 'Y', 'N'].contains c) m = true := List.contains_iff_mem.2 h
    refine Reads.orR (failsW (by decide) _ _ (by trivial)) (Reads.orR (failsW (by decide) _ _ (by trivial)) ?_)
    cases t with
    | true =>
      exact Reads.orL ((reads_kw _).one ((reads_int i).one (Reads.pt ((reads_num r).one ((reads_chr _ m hm).last fun _ => rfl) trivial) trivial) trivial) trivial)
    | false =>
      refine Reads.orR ?_ (Reads.orL ((reads_kw _).one ((reads_int i).one (Reads.pt ((reads_chr _ m hm).one ((reads_num r).last fun _ => rfl) trivial) trivial) trivial) trivial))
      refine (reads_kw _).fails1 ((reads_int i).fails1 ((reads_point p).fails ((failsAt_num.bind _).fails (first_str m [] _ fun s => ?_)) (by trivial)) (by trivial)) (by trivial)
      intro d hd
      cases hd
      have key : ∀ c ∈ ['X', 'Y', 'N'], numStart c = false := by decide
      exact key m h

theorem reads_boardSec (g : Option (PBoard ℚ)) (h : ∀ x, g = some x → WfBoard x) : SecReads boardSection (secToks (.board g)) (secEvs (.board g)) := by
  intro b s r hs hr
  cases g with
  | none =>
    obtain ⟨s', e, h1, h2⟩ := kw_split ".board_geom" (ts := [W ".end board_geom"]) trivial hs hr
    have hf : board (s' ++ r) = none := by
      refine Fails.alts (ts := [W ".end board_geom"]) ?_ false s' r h1 h2
      intro p hp
      simp only [List.mem_cons, List.not_mem_nil, or_false] at hp
      rcases hp with rfl | rfl | rfl | rfl <;> exact failsW (by decide) _ _ trivial
    have e3 := reads_kw ".end board_geom" false s' r h1 h2 trivial
    unfold boardSection
    simp only [e, hf, e3]
    rfl
  | some g =>
    have hsp : Sp (boardToks g ++ [W ".end board_geom"]) := by cases g <;> trivial
    obtain ⟨s', e, h1, h2⟩ := kw_split ".board_geom" (ts := boardToks g ++ [W ".end board_geom"]) hsp hs hr
    obtain ⟨s1, s2, rfl, h3, h4⟩ := h1.split
    unfold Ends at h2
    rw [after_append] at h2
    have e2 := reads_board g (h g rfl) false s1 (s2 ++ r) h3 (h4.ends trivial h2) trivial
    have e3 := reads_kw ".end board_geom" _ s2 r h4 h2 trivial
    unfold boardSection
    rw [List.append_assoc] at e
    simp only [e, e2, e3]
    rfl

/-! ### sections that are passed over -/

theorem strip_append (f : Char → Char) (k k2 s x : Str) (h : strip f (k ++ k2) s = some x) : ∃ y, strip f k s = some y := by
  induction k generalizing s with
  | nil => exact ⟨s, rfl⟩
  | cons c k ih =>
    cases s with
    | nil => cases h
    | cons d s =>
      simp only [List.cons_append, strip] at h ⊢
      split at h
      · rename_i hc
        rw [if_pos hc]; exact ih s h
      · cases h

theorem strip_stop (k u r x : Str) (hk : ∀ c ∈ k, ∀ d, Blank d ∨ d = '#' → c.toLower ≠ d.toLower) (hr : Stop r)
    (h : strip Char.toLower k (u ++ r) = some x) : k.map Char.toLower <+: u.map Char.toLower := by
  induction k generalizing u with
  | nil => exact List.nil_prefix
  | cons c k ih =>
    cases u with
    | nil =>
      exfalso
      rcases hr with rfl | ⟨d, r', rfl, hd⟩
      · cases h
      · simp only [List.nil_append, strip] at h
        rw [if_neg (hk c (by simp) d hd)] at h
        cases h
    | cons d u =>
      simp only [List.cons_append, strip] at h
      split at h
      · rename_i hc
        have := ih u (fun e he => hk e (List.mem_cons_of_mem _ he)) h
        rw [List.map_cons, List.map_cons, hc]
        exact List.cons_prefix_cons.2 ⟨rfl, this⟩
      · cases h

theorem kw_word {t : Str} (ht : Word t) (w : String) {k : Str} (hw : w.toList = ".end".toList ++ k) (a v : Str) (e : t = a ++ v) (hv : v ≠ []) {r : Str}
    (hr : Stop r) : kw w (v ++ r) = none := by
  obtain ⟨_, h2, h3⟩ := ht
  have hs : skip (v ++ r) = v ++ r := by
    refine skip_solid ?_ r
    cases v with
    | nil => exact absurd rfl hv
    | cons c v => exact ⟨c, v, rfl, h2 c (by rw [e]; simp)⟩
  unfold kw lex
  rw [hs]
  dsimp only
  cases hx : strip Char.toLower w.toList (v ++ r) with
  | none => rfl
  | some x =>
    exfalso
    rw [hw] at hx
    obtain ⟨y, hy⟩ := strip_append _ _ _ _ _ hx
    have := strip_stop _ v r y ?_ hr hy
    · refine h3 ?_
      have e4 : (".end".toList).map Char.toLower = ".end".toList := by decide
      rw [e4] at this
      rw [e, List.map_append]
      exact this.isInfix.trans (List.suffix_append _ _).isInfix
    · intro c hc d hd
      revert c
      exact blank_cases (p := fun d => ∀ c ∈ ".end".toList, c.toLower ≠ d.toLower) (by decide) d hd

theorem untilN_word {t : Str} (ht : Word t) (w : String) {k : Str} (hw : w.toList = ".end".toList ++ k) (a v : Str) (e : t = a ++ v) {r : Str}
    (hr : Stop r) (n : Nat) : untilN (kw w) (v.length + n) (v ++ r) = untilN (kw w) n r := by
  induction v generalizing a with
  | nil => simp
  | cons c v ih =>
    have h1 := kw_word ht w hw a (c :: v) e (by simp) hr
    have hs : skip (c :: v ++ r) = c :: (v ++ r) :=
      skip_solid (u := c :: v) ⟨c, v, rfl, ht.2.1 c (by rw [e]; simp)⟩ r
    have e2 : (c :: v).length + n = (v.length + n) + 1 := by simp only [List.length_cons]; omega
    rw [e2]
    conv_lhs => unfold untilN
    rw [h1]
    simp only [hs]
    exact ih (a ++ [c]) (by rw [e]; simp)

theorem untilN_reads (w : String) {k : Str} (hw : w.toList = ".end".toList ++ k) (l : List Str) (hl : ∀ t ∈ l, Word t) (b : Bool) (s r : Str)
    (hs : Writes b (l.flatMap (fun t => [S t]) ++ [W w]) s) (hr : Ends b (l.flatMap (fun t => [S t]) ++ [W w]) r) (n : Nat) (hn : s.length < n) :
    ∃ b' s', untilN (kw w) n (s ++ r) = s' ++ r ∧ Writes b' [W w] s' ∧ Ends b' [W w] r := by
  induction l generalizing b s n with
  | nil =>
    refine ⟨b, s, ?_, hs, hr⟩
    obtain ⟨m, rfl⟩ : ∃ m, n = m + 1 := ⟨n - 1, by omega⟩
    unfold untilN
    rw [reads_kw w b s r hs hr trivial]
  | cons t l ih =>
    have ht := hl t (by simp)
    have e1 : (t :: l).flatMap (fun t => [S t]) ++ [W w] = S t :: (l.flatMap (fun t => [S t]) ++ [W w]) := rfl
    rw [e1] at hs hr
    cases hs with
    | tok _ _ _ g u s hg hb hu ho hs =>
      have hu : u = t := hu
      subst hu
      have hr2 : Ends false (l.flatMap (fun t => [S t]) ++ [W w]) r := hr
      have hst : Stop (s ++ r) := (hs.ends (hd_flatMap l (fun _ _ => Hd.tok _ _) (Hd.tok _ _)).sp hr2).resolve_left (by simp)
      obtain ⟨c, u', rfl, hcb⟩ := ho
      have hsk : skip (g ++ (c :: u' ++ s) ++ r) = c :: u' ++ (s ++ r) := by
        rw [List.append_assoc, skip_gap hg, List.append_assoc, skip_solid ⟨c, u', rfl, hcb⟩]
      have hk : kw w (g ++ (c :: u' ++ s) ++ r) = none := by
        have := kw_word ht w hw [] (c :: u') rfl (by simp) hst
        unfold kw lex at this ⊢
        rw [skip_solid ⟨c, u', rfl, hcb⟩] at this
        rw [hsk]; exact this
      simp only [List.length_append, List.length_cons] at hn
      obtain ⟨b', s', e, h1, h2⟩ := ih (fun x hx => hl x (List.mem_cons_of_mem _ hx)) false s hs hr2 (n - 1 - u'.length) (by omega)
      refine ⟨b', s', ?_, h1, h2⟩
      obtain ⟨m, rfl⟩ : ∃ m, n = (u'.length + m) + 1 := ⟨n - 1 - u'.length, by omega⟩
      conv_lhs => unfold untilN
      rw [hk]
      simp only [hsk]
      simp only [List.cons_append]
      rw [untilN_word ht w hw [c] u' rfl hst]
      rw [← e]
      congr 1
      omega

theorem secReads_skip (w : String) {close : String} {k : Str} (hw : close.toList = ".end".toList ++ k) (l : List Str) (hl : ∀ t ∈ l, Word t) :
    SecReads (secSkip w close) (starToks w (fun t => [S t]) l close) [] := by
  intro b s r hs hr
  have hh := hd_flatMap (toks := fun t => [S t]) (us := [W close]) l (fun x hx => Hd.tok _ _) (Hd.tok _ _)
  obtain ⟨s', e, h1, h2⟩ := kw_split w hh.sp hs hr
  obtain ⟨b', s2, e2, h3, h4⟩ := untilN_reads close hw l hl false s' r h1 h2 ((s' ++ r).length + 1) (by simp only [List.length_append]; omega)
  have e3 := reads_kw close b' s2 r h3 h4 trivial
  unfold secSkip
  rw [e]
  simp only [e2, e3, Option.map_some]

/-- `.material` begins `.material_frequency`. -/
theorem secFails_mat (ts : List Tok) (ht : Sp ts) : SecFails (secStar ".material" (material.ev .material) ".end material") (W ".material_frequency" :: ts) := by
  intro b s r hs hr
  cases hs with
  | tok _ _ _ g u s hg hb hu ho hs =>
    have hu : u.map Char.toLower = ".material_frequency".toList := hu
    obtain ⟨u1, u2, rfl, h1, h2⟩ : ∃ u1 u2, u = u1 ++ u2 ∧ u1.map Char.toLower = ".material".toList ∧ u2.map Char.toLower = "_frequency".toList :=
      List.map_eq_append_iff.1 hu
    obtain ⟨c, u3, rfl, hc⟩ : ∃ c u3, u2 = c :: u3 ∧ c = '_' := by
      cases u2 with
      | nil => cases h2
      | cons c u3 => exact ⟨c, u3, rfl, toLower_eq (by decide) (List.cons.inj h2).1⟩
    subst hc
    have e1 : kw ".material" (g ++ (u1 ++ '_' :: u3 ++ s) ++ r) = some ((), '_' :: (u3 ++ s ++ r)) := by
      unfold kw
      rw [List.append_assoc, List.append_assoc]
      refine (lex_tok _ hg ho _).trans ?_
      have := strip_text Char.toLower ".material".toList u1 ('_' :: (u3 ++ s ++ r)) h1
      have e : u1 ++ '_' :: u3 ++ (s ++ r) = u1 ++ '_' :: (u3 ++ s ++ r) := by simp
      rw [e, this]; rfl
    have hsk : skip ('_' :: (u3 ++ s ++ r)) = '_' :: (u3 ++ s ++ r) := skip_solid (u := ['_']) ⟨'_', [], rfl, by simp [Blank], by decide⟩ _
    have e2 : (material.ev .material) ('_' :: (u3 ++ s ++ r)) = none := by
      refine bind_none ?_
      have k1 : kw "C" ('_' :: (u3 ++ s ++ r)) = none := failsAt_kw "C" rfl _ (by rw [hsk]; intro d hd; cases hd; decide)
      have k2 : kw "D" ('_' :: (u3 ++ s ++ r)) = none := failsAt_kw "D" rfl _ (by rw [hsk]; intro d hd; cases hd; decide)
      unfold material P.or
      rw [bind_none k1]
      exact bind_none k2
    have e3 : kw ".end material" ('_' :: (u3 ++ s ++ r)) = none := failsAt_kw ".end material" (c := '.') rfl _ (by rw [hsk]; intro d hd; cases hd; decide)
    unfold secStar
    simp only [e1, starN, e2, e3, Option.map_none]

/-- **Every section of the format (but for what is not read) is read as written.** -/
theorem step_sec (x : PSec) (h : WfSec x) : SecReads step (secToks x) (secEvs x) := by
  cases x with
  | version a b =>
    exact step_others _ _ (Reads.orL ((reads_kw _).one ((reads_int a).one ((reads_int b).last fun _ => rfl) trivial) trivial))
  | unit t =>
    exact step_others _ _ (Reads.orR (failsW (by decide) _ _ trivial) (Reads.orL ((reads_kw _).one ((reads_text t h).last fun _ => rfl) trivial)))
  | designType t =>
    exact step_others _ _ (Reads.orR (failsW (by decide) _ _ trivial) (Reads.orR (failsW (by decide) _ _ trivial)
      (Reads.orL ((reads_kw _).one ((reads_text t h).last fun _ => rfl) trivial))))
  | scale q =>
    exact step_others _ _ (Reads.orR (failsW (by decide) _ _ trivial) (Reads.orR (failsW (by decide) _ _ trivial) (Reads.orR (failsW (by decide) _ _ trivial)
      (Reads.orL ((reads_kw _).one ((reads_num q).last fun _ => rfl) trivial)))))
  | material l =>
    refine step_reads 0 _ rfl ".material" _ (hd_flatMap l (fun x _ => (hd_mat x.1 x.2).hd) (Hd.tok _ _)).sp _ (by decide) (by decide) ?_
    exact secReads_star (G := fun _ => DblFails) (ev := fun x => Ev.material x.2) l (fun x hx => ⟨(reads_material x.1 x.2 (h x hx)).ev _, (hd_mat x.1 x.2).hd⟩)
      (foll_all l (fun x _ => hd_mat x.1 x.2) (first_end ".end material" rfl [] fun d s hd => dot_dbl d s (isDigit_lower hd rfl))) fails_end_mat
  | layer l =>
    refine step_reads 2 _ rfl ".layer" _ (hd_flatMap l (fun x _ => Hd.tok _ _) (Hd.tok _ _)).sp _ (by decide) (by decide) ?_
    exact secReads_star (G := fun _ => Any) l (fun x hx => ⟨(reads_layer x (h x hx)).ev _, Hd.tok _ _⟩)
      (foll_all l (fun x _ => first_any _) (first_any _)) ((fails_end_dq _ ".end layer" rfl).bind _)
  | shape l =>
    refine step_reads 3 _ rfl ".shape" _ (hd_flatMap l (fun x _ => Hd.tok _ _) (Hd.tok _ _)).sp _ (by decide) (by decide) ?_
    exact secReads_star (G := fun _ => Any) l (fun x hx => ⟨(reads_shape x (good_geo (h x hx))).ev _, Hd.tok _ _⟩)
      (foll_all l (fun x _ => first_any _) (first_any _)) ((fails_end_int _ ".end shape" rfl).bind _)
  | board g =>
    refine step_reads 4 _ rfl ".board_geom" _ ?_ _ (by decide) (by decide) (reads_boardSec g h)
    cases g with
    | none => trivial
    | some g => cases g <;> trivial
  | padstack l =>
    refine step_reads 5 _ rfl ".padstack" _ (hd_flatMap l (fun x _ => Hd.tok _ _) (Hd.tok _ _)).sp _ (by decide) (by decide) ?_
    exact secReads_star (G := fun _ => Any) l (fun x hx => ⟨(reads_padstack x).ev _, Hd.tok _ _⟩)
      (foll_all l (fun x _ => first_any _) (first_any _)) ((fails_end_int _ ".end padstack" rfl).bind _)
  | via l =>
    refine step_reads 6 _ rfl ".via" _ (hd_flatMap l (fun x _ => Hd.tok _ _) (Hd.tok _ _)).sp _ (by decide) (by decide) ?_
    exact secReads_star (G := fun _ => Any) l (fun x hx => ⟨(reads_viaD x (h x hx)).ev _, Hd.tok _ _⟩)
      (foll_all l (fun x _ => first_any _) (first_any _)) fails_end_via
  | part l =>
    refine step_reads 7 _ rfl ".part" _ (hd_flatMap l (fun x _ => Hd.tok _ _) (Hd.tok _ _)).sp _ (by decide) (by decide) ?_
    exact secReads_star (G := fun _ => Any) (ev := fun x => Ev.part (x.1, x.2.map Prod.snd)) l (fun x hx => ⟨(reads_part x.1 x.2 (h x hx).1 (h x hx).2.1 (h x hx).2.2).ev _, Hd.tok _ _⟩)
      (foll_all l (fun x _ => first_any _) (first_any _)) fails_end_part
  | net l =>
    refine step_reads 10 _ rfl ".netlist" _ (hd_flatMap l (fun x _ => Hd.tok _ _) (Hd.tok _ _)).sp _ (by decide) (by decide) ?_
    exact secReads_star (G := fun _ => Any) (ev := fun x => Ev.net x.net) l (fun x hx => ⟨(reads_net x.nums x.nodes x.net (h x hx).1 (h x hx).2).ev _, Hd.tok _ _⟩)
      (foll_all l (fun x _ => first_any _) (first_any _)) ((fails_end_dq _ ".end netlist" rfl).bind _)
  | route l =>
    refine step_reads 11 _ rfl ".route" _ (hd_flatMap l (fun x _ => Hd.tok _ _) (Hd.tok _ _)).sp _ (by decide) (by decide) ?_
    refine secReads_star (G := fun _ => Any) (ev := fun x => Ev.route (x.1, x.2.map Prod.snd)) l (fun x hx => ⟨Reads.ev ?_ _, Hd.tok _ _⟩)
      (foll_all l (fun x _ => first_any _) (first_any _)) ((fails_end_dq _ ".end route" rfl).bind _)
    obtain ⟨h1, h2, h3, h4⟩ := h x hx
    exact fun b s r hs hr _ => c105_route_partial x.1 x.2 h1 h2 h3 h4 b s r hs hr
  | other w l =>
    obtain ⟨hw, hl⟩ := h
    have hsp := (hd_flatMap (us := [W (".end " ++ w)]) l (fun x _ => Hd.tok (Lit.str x) []) (Hd.tok _ _)).sp
    simp only [List.mem_cons, List.not_mem_nil, or_false] at hw
    rcases hw with rfl | rfl | rfl
    · obtain ⟨qs, e1⟩ := step_split 2 _ rfl
      unfold step
      rw [e1]
      refine secAlts_reads _ _ qs ?_ (secReads_skip ".material_frequency" (close := ".end material_frequency") rfl l hl)
      intro p hp
      have hp : p ∈ [one others, secStar ".material" (material.ev .material) ".end material"] := hp
      simp only [List.mem_cons, List.not_mem_nil, or_false] at hp
      rcases hp with rfl | rfl
      · exact secFails_one (fails_others _ _ hsp (by decide))
      · exact secFails_mat _ hsp
    · exact step_reads 8 _ rfl ".component" _ hsp _ (by decide) (by decide) (secReads_skip ".component" (close := ".end component") rfl l hl)
    · exact step_reads 9 _ rfl ".netattr" _ hsp _ (by decide) (by decide) (secReads_skip ".netattr" (close := ".end netattr") rfl l hl)

end Ecad.XflP
