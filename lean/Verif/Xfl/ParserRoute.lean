import Verif.Xfl.ParserObj
/-!
Routes: which are read as they are written, and which are not.
-/
namespace Ecad.XflP
open Ecad.Xfl

/-- Objects of routes that are read as they are written, if nothing wrong follows -/
def GoodObj (x : Extra) : PObj ℚ → Prop
  | .path _ _ p => GoodComp p
  | .via _ _ n _ _ m => Name n ∧ (if x.mirror then m ∈ ['N', 'Y', '0', '1'] else m = 'N')
  | .bondwire _ _ _ _ _ => ∀ d, x.dies = some d → Name d.1 ∧ Name d.2
  | .diamond .. => False
  | .composite _ _ c => GoodComp c
  | .shape _ _ _ _ _ m _ => m = 'N' ∨ m = 'Y'
  | _ => True

/-- What may follow an object -/
def Follow (x : Extra) : PObj ℚ → Str → Prop
  | .via .. => fun o => x.mirror = false → ∀ d, o.head? = some d → d ∉ ['N', 'Y', '0', '1']
  | .bondwire .. => fun o => x.dies = none → ∀ d, o.head? = some d → isNC d = false
  | _ => Any

theorem hd_obj (x : Extra) (o : PObj ℚ) : Hd (objToks x o) := by cases o <;> exact Hd.tok _ _

theorem sp_dies (d : Option (Str × Str)) : Sp (match d with | some d => [S d.1, S d.2] | none => []) := by cases d <;> trivial

theorem reads_path (x : Extra) (l : Int) (w : ℚ) (p : List (Seg ℚ)) (h : GoodComp p) : Reads Any instPath (objToks x (.path l w p)) (.path l w p) :=
  (reads_kw _).one ((reads_int l).one ((reads_num w).one ((reads_composite p h).last fun _ => rfl) trivial) trivial) trivial

theorem reads_via (x : Extra) (s e : Int) (n : Str) (l : ℚ × ℚ) (r : ℚ) (m : Char) (h : GoodObj x (.via s e n l r m)) :
    Reads (Follow x (.via s e n l r m)) instVia (objToks x (.via s e n l r m)) (.via s e n l r m) := by
  refine (reads_kw _).one ((reads_int s).one ((reads_int e).one ((reads_textNC n h.1).one (Reads.pt ((reads_num r).one ?_ ?_) trivial) trivial) trivial)
    trivial) trivial
  · have h2 := h.2
    by_cases hm : x.mirror = true
    · rw [if_pos hm] at h2 ⊢
      exact (reads_chr _ m (List.contains_iff_mem.2 h2)).any.opt.last fun _ => rfl
    · rw [if_neg hm] at h2 ⊢
      have hm' : x.mirror = false := by simpa using hm
      refine Reads.last (a := none) ?_ (fun _ => by rw [h2]; rfl)
      refine ((failsAt_chr _).mono fun o ho d hd => ?_).noOpt
      have := ho hm' d hd
      simpa using this
  · by_cases hm : x.mirror = true
    · rw [if_pos hm]; trivial
    · rw [if_neg hm]; trivial

theorem reads_bondwire (x : Extra) (s e i : Int) (p q : ℚ × ℚ) (h : GoodObj x (.bondwire s e i p q)) :
    Reads (Follow x (.bondwire s e i p q)) instBondwire (objToks x (.bondwire s e i p q)) (.bondwire s e i p q) := by
  refine (reads_kw _).one ((reads_int s).one ((reads_int e).one ((reads_int i).one (Reads.pt (Reads.pt ?_ (sp_dies _)) trivial) trivial) trivial)
    trivial) trivial
  cases hd : x.dies with
  | some d =>
    have := h d hd
    exact Reads.last (a := some (d.1, d.2)) (Reads.any ((reads_textNC d.1 this.1).one ((reads_textNC d.2 this.2).last fun _ => rfl) (by trivial))).opt fun _ => rfl
  | none =>
    refine Reads.last (a := none) ?_ (fun _ => rfl)
    exact ((failsAt_textNC.bind _).mono fun o ho => ho hd).noOpt

theorem reads_polygonO (x : Extra) (v : Bool) (l : Int) (p : List (ℚ × ℚ)) : Reads Any instPolygon (objToks x (.polygon v l p)) (.polygon v l p) :=
  (reads_solid "polygon" v (by decide)).one ((reads_int l).one ((reads_polygon p).last fun _ => rfl) trivial) trivial

theorem reads_rectangleO (x : Extra) (v : Bool) (l : Int) (w h : ℚ) (p : ℚ × ℚ) :
    Reads Any instRectangle (objToks x (.rectangle v l w h p)) (.rectangle v l w h p) :=
  (reads_solid "rectangle" v (by decide)).one ((reads_int l).one (Reads.pt (p := (w, h)) ((reads_point p).last fun _ => rfl) trivial) trivial) trivial

theorem reads_squareO (x : Extra) (v : Bool) (l : Int) (w : ℚ) (p : ℚ × ℚ) : Reads Any instSquare (objToks x (.square v l w p)) (.square v l w p) :=
  (reads_solid "square" v (by decide)).one ((reads_int l).one ((reads_num w).one ((reads_point p).last fun _ => rfl) trivial) trivial) trivial

theorem reads_circleO (x : Extra) (v : Bool) (l : Int) (w : ℚ) (p : ℚ × ℚ) : Reads Any instCircle (objToks x (.circle v l w p)) (.circle v l w p) :=
  (reads_solid "circle" v (by decide)).one ((reads_int l).one ((reads_num w).one ((reads_point p).last fun _ => rfl) trivial) trivial) trivial

theorem reads_annularO (x : Extra) (l : Int) (a b : ℚ) (p : ℚ × ℚ) : Reads Any instAnnular (objToks x (.annular l a b p)) (.annular l a b p) :=
  (reads_kw _).one ((reads_int l).one (Reads.pt (p := (a, b)) ((reads_point p).last fun _ => rfl) trivial) trivial) trivial

theorem reads_compositeO (x : Extra) (v : Bool) (l : Int) (c : List (Seg ℚ)) (h : GoodComp c) :
    Reads Any instComposite (objToks x (.composite v l c)) (.composite v l c) :=
  (reads_solid "composite" v (by decide)).one ((reads_int l).one ((reads_composite c h).last fun _ => rfl) trivial) trivial

theorem reads_rotMirror (f : Char → Bool) (r : ℚ) (m : Char) (t : Bool) (hm : f m = true) (hn : numStart m = false) :
    Reads Any (rotMirror f) (if t then [N r, S [m]] else [S [m], N r]) (r, m, t) := by
  cases t with
  | true => exact Reads.orL ((reads_num r).one ((reads_chr f m hm).last fun _ => rfl) trivial)
  | false =>
    refine Reads.orR ?_ ((reads_chr f m hm).one ((reads_num r).last fun _ => rfl) trivial)
    exact (failsAt_num.bind _).fails (first_str m [] _ (by intro s d hd; cases hd; exact hn))

theorem reads_shapeO (x : Extra) (v : Bool) (l i : Int) (p : ℚ × ℚ) (r : ℚ) (m : Char) (t : Bool) (hm : m = 'N' ∨ m = 'Y') :
    Reads Any instShape (objToks x (.shape v l i p r m t)) (.shape v l i p r m t) := by
  refine (reads_solid "shape" v (by decide)).one ((reads_int l).one ((reads_int i).one (Reads.pt (us := if t then [N r, S [m]] else [S [m], N r]) ?_ ?_)
    trivial) trivial) trivial
  · refine Reads.last (reads_rotMirror _ r m t ?_ ?_) fun _ => rfl
    · rcases hm with rfl | rfl <;> rfl
    · rcases hm with rfl | rfl <;> rfl
  · cases t <;> trivial

/-- keyword of an object -/
def objWord : PObj ℚ → String
  | .path .. => "path"
  | .via .. => "via"
  | .bondwire .. => "bondwire"
  | .polygon v .. => if v then "void_polygon" else "polygon"
  | .rectangle v .. => if v then "void_rectangle" else "rectangle"
  | .square v .. => if v then "void_square" else "square"
  | .diamond v .. => if v then "void_diamond" else "diamond"
  | .circle v .. => if v then "void_circle" else "circle"
  | .annular .. => "annular"
  | .composite v .. => if v then "void_composite" else "composite"
  | .shape v .. => if v then "void_shape" else "shape"

/-- the keywords -/
def objWords : List String := ["path", "via", "bondwire", "annular", "polygon", "rectangle", "square", "diamond", "circle", "composite", "shape",
  "void_polygon", "void_rectangle", "void_square", "void_diamond", "void_circle", "void_composite", "void_shape"]

theorem objWords_all {p : String → Prop} (h : ∀ w ∈ objWords, p w) (o : PObj ℚ) : p (objWord o) := by
  refine h _ ?_
  unfold objWords
  cases o with
  | polygon v | rectangle v | square v | diamond v | circle v | composite v | shape v => cases v <;> simp [objWord]
  | _ => simp [objWord]

/-- layer of an object, the number after its keyword -/
def objLayer : PObj ℚ → Int
  | .path l .. => l
  | .via s .. => s
  | .bondwire s .. => s
  | .polygon _ l .. => l
  | .rectangle _ l .. => l
  | .square _ l .. => l
  | .diamond _ l .. => l
  | .circle _ l .. => l
  | .annular l .. => l
  | .composite _ l .. => l
  | .shape _ l .. => l

theorem objToks_head (x : Extra) (o : PObj ℚ) : ∃ ts, objToks x o = W (objWord o) :: I (objLayer o) :: ts ∧ Hd ts := by
  cases o with
  | polygon v | rectangle v | square v | diamond v | circle v | composite v | shape v =>
    cases v <;> exact ⟨_, rfl, Hd.tok _ _⟩
  | _ => exact ⟨_, rfl, Hd.tok _ _⟩

/-- keywords of the rules -/
def ruleWords : List String := ["path", "via", "bondwire", "polygon", "rectangle", "square", "circle", "annular", "composite", "shape"]

/-- a keyword that does not fit -/
theorem fails_nth (k : String) (ts : List Tok) (ht : Sp ts) (n : Nat) (q : P (PObj ℚ)) (hq : objAlts[n]? = some q)
    (hw : ∀ w, ruleWords[n]? = some w → differ Char.toLower w.toList k.toList = true ∧ differ Char.toLower ("void_" ++ w).toList k.toList = true) :
    Fails q (W k :: ts) := by
  match n with
  | 0 => cases hq; exact failsW (hw _ rfl).1 _ _ ht
  | 1 => cases hq; exact failsW (hw _ rfl).1 _ _ ht
  | 2 => cases hq; exact failsW (hw _ rfl).1 _ _ ht
  | 3 => cases hq; exact failsSV (hw _ rfl).1 (hw _ rfl).2 _ _ ht
  | 4 => cases hq; exact failsSV (hw _ rfl).1 (hw _ rfl).2 _ _ ht
  | 5 => cases hq; exact failsSV (hw _ rfl).1 (hw _ rfl).2 _ _ ht
  | 6 => cases hq; exact failsSV (hw _ rfl).1 (hw _ rfl).2 _ _ ht
  | 7 => cases hq; exact failsW (hw _ rfl).1 _ _ ht
  | 8 => cases hq; exact failsSV (hw _ rfl).1 (hw _ rfl).2 _ _ ht
  | 9 => cases hq; exact failsSV (hw _ rfl).1 (hw _ rfl).2 _ _ ht
  | n + 10 => cases hq

/-- the keywords that do not fit -/
theorem fails_obj (k : String) (ts : List Tok) (ht : Sp ts) (j : Nat)
    (h : ∀ w ∈ ruleWords.take j,
      differ Char.toLower w.toList k.toList = true ∧ differ Char.toLower ("void_" ++ w).toList k.toList = true) :
    ∀ q ∈ objAlts.take j, Fails q (W k :: ts) := by
  intro q hq
  obtain ⟨n, hn⟩ := List.mem_iff_getElem?.1 hq
  by_cases hlt : n < j
  · rw [List.getElem?_take_of_lt hlt] at hn
    refine fails_nth k ts ht n q hn fun w hw => h w (List.mem_iff_getElem?.2 ⟨n, ?_⟩)
    rw [List.getElem?_take_of_lt hlt]; exact hw
  · rw [List.getElem?_eq_none (by rw [List.length_take]; omega)] at hn; cases hn

/-- all rules fail if the one that fits does -/
theorem fails_all (k : String) (ts : List Tok) (ht : Sp ts) (i : Nat)
    (h : ∀ w ∈ ruleWords.take i ++ ruleWords.drop (i + 1),
      differ Char.toLower w.toList k.toList = true ∧ differ Char.toLower ("void_" ++ w).toList k.toList = true)
    (hi : ∀ q, objAlts[i]? = some q → Fails q (W k :: ts)) : Fails (alts objAlts) (W k :: ts) := by
  refine Fails.alts fun q hq => ?_
  obtain ⟨n, hn⟩ := List.mem_iff_getElem?.1 hq
  by_cases he : n = i
  · subst he; exact hi q hn
  · refine fails_nth k ts ht n q hn fun w hw => h w (List.mem_append.2 ?_)
    by_cases hlt : n < i
    · left; refine List.mem_iff_getElem?.2 ⟨n, ?_⟩
      rw [List.getElem?_take_of_lt hlt]; exact hw
    · right; refine List.mem_iff_getElem?.2 ⟨n - (i + 1), ?_⟩
      rw [List.getElem?_drop, show i + 1 + (n - (i + 1)) = n by omega]; exact hw

theorem reads_obj (x : Extra) (o : PObj ℚ) (h : GoodObj x o) : Reads (Follow x o) (alts objAlts) (objToks x o) o := by
  cases o with
  | path l w p => exact Reads.alt [] _ (by simp) (reads_path x l w p h)
  | via s e n l r m => exact Reads.alt (objAlts.take 1) _ (fails_obj "via" _ (by trivial) 1 (by decide)) (reads_via x s e n l r m h)
  | bondwire s e i p q => exact Reads.alt (objAlts.take 2) _ (fails_obj "bondwire" _ (by trivial) 2 (by decide)) (reads_bondwire x s e i p q h)
  | polygon v l p =>
    refine Reads.alt (objAlts.take 3) _ ?_ (reads_polygonO x v l p)
    cases v
    · exact fails_obj "polygon" _ (by trivial) 3 (by decide)
    · exact fails_obj "void_polygon" _ (by trivial) 3 (by decide)
  | rectangle v l w h' p =>
    refine Reads.alt (objAlts.take 4) _ ?_ (reads_rectangleO x v l w h' p)
    cases v
    · exact fails_obj "rectangle" _ (by trivial) 4 (by decide)
    · exact fails_obj "void_rectangle" _ (by trivial) 4 (by decide)
  | square v l w p =>
    refine Reads.alt (objAlts.take 5) _ ?_ (reads_squareO x v l w p)
    cases v
    · exact fails_obj "square" _ (by trivial) 5 (by decide)
    · exact fails_obj "void_square" _ (by trivial) 5 (by decide)
  | diamond => exact absurd h id
  | circle v l w p =>
    refine Reads.alt (objAlts.take 6) _ ?_ (reads_circleO x v l w p)
    cases v
    · exact fails_obj "circle" _ (by trivial) 6 (by decide)
    · exact fails_obj "void_circle" _ (by trivial) 6 (by decide)
  | annular l a b p => exact Reads.alt (objAlts.take 7) _ (fails_obj "annular" _ (by trivial) 7 (by decide)) (reads_annularO x l a b p)
  | composite v l c =>
    refine Reads.alt (objAlts.take 8) _ ?_ (reads_compositeO x v l c h)
    cases v
    · exact fails_obj "composite" _ (by trivial) 8 (by decide)
    · exact fails_obj "void_composite" _ (by trivial) 8 (by decide)
  | shape v l i p r m t =>
    refine Reads.alt (objAlts.take 9) _ ?_ (reads_shapeO x v l i p r m t h)
    cases v
    · exact fails_obj "shape" _ (by trivial) 9 (by decide)
    · exact fails_obj "void_shape" _ (by trivial) 9 (by decide)

/-- letters objects begin with -/
def objStart (c : Char) : Bool := ['p', 'v', 'b', 'r', 's', 'c', 'a'].contains c.toLower

theorem failsAt_sv {α : Type} {k k' : String} {c c' : Char} {w w' : Str} (h : k.toList = c :: w) (h' : k'.toList = c' :: w') (f : Bool → P α) :
    FailsAt (solidOrVoid k k' >>= f) (fun o => ∀ d, o.head? = some d → c.toLower ≠ d.toLower ∧ c'.toLower ≠ d.toLower) :=
  FailsAt.bind (.or (((failsAt_kw k h).mono fun _ ho d hd => (ho d hd).1).bind _) (((failsAt_kw k' h').mono fun _ ho d hd => (ho d hd).2).bind _)) f

theorem failsAt_obj : FailsAt (alts objAlts) (fun o => ∀ d, o.head? = some d → objStart d = false) := by
  have key : ∀ (c : Char), c.toLower ∈ ['p', 'v', 'b', 'r', 's', 'c', 'a'] → ∀ d : Char, objStart d = false → c.toLower ≠ d.toLower := by
    intro c hc d hd e
    rw [e] at hc
    have := List.contains_iff_mem.2 hc
    unfold objStart at hd
    rw [this] at hd; cases hd
  refine FailsAt.alts fun p hp => ?_
  simp only [objAlts, List.mem_cons, List.not_mem_nil, or_false] at hp
  rcases hp with rfl | rfl | rfl | rfl | rfl | rfl | rfl | rfl | rfl | rfl
  · exact ((failsAt_kw "path" rfl).mono fun o ho d hd => key _ (by decide) d (ho d hd)).bind _
  · exact ((failsAt_kw "via" rfl).mono fun o ho d hd => key _ (by decide) d (ho d hd)).bind _
  · exact ((failsAt_kw "bondwire" rfl).mono fun o ho d hd => key _ (by decide) d (ho d hd)).bind _
  · exact (failsAt_sv (k := "polygon") (k' := "void_polygon") rfl rfl _).mono fun o ho d hd => ⟨key _ (by decide) d (ho d hd), key _ (by decide) d (ho d hd)⟩
  · exact (failsAt_sv (k := "rectangle") (k' := "void_rectangle") rfl rfl _).mono fun o ho d hd => ⟨key _ (by decide) d (ho d hd), key _ (by decide) d (ho d hd)⟩
  · exact (failsAt_sv (k := "square") (k' := "void_square") rfl rfl _).mono fun o ho d hd => ⟨key _ (by decide) d (ho d hd), key _ (by decide) d (ho d hd)⟩
  · exact (failsAt_sv (k := "circle") (k' := "void_circle") rfl rfl _).mono fun o ho d hd => ⟨key _ (by decide) d (ho d hd), key _ (by decide) d (ho d hd)⟩
  · exact ((failsAt_kw "annular" rfl).mono fun o ho d hd => key _ (by decide) d (ho d hd)).bind _
  · exact (failsAt_sv (k := "composite") (k' := "void_composite") rfl rfl _).mono fun o ho d hd => ⟨key _ (by decide) d (ho d hd), key _ (by decide) d (ho d hd)⟩
  · exact (failsAt_sv (k := "shape") (k' := "void_shape") rfl rfl _).mono fun o ho d hd => ⟨key _ (by decide) d (ho d hd), key _ (by decide) d (ho d hd)⟩

/-- A bond wire without dies is the last object. -/
def DiesLast : List (Extra × PObj ℚ) → Prop
  | [] => True
  | [_] => True
  | (x, o) :: l => (match o with | .bondwire .. => x.dies ≠ none | _ => True) ∧ DiesLast l

/-- keywords do not begin with a mirror -/
theorem first_obj (o : PObj ℚ) (ts : List Tok) : First (fun c => ∀ d, c.head? = some d → d ∉ ['N', 'Y', '0', '1']) (W (objWord o) :: ts) := by
  have key : ∀ (w : String), (match w.toList with | c :: _ => !['n', 'y', '0', '1'].contains c.toLower | [] => false) = true →
      First (fun c => ∀ d, c.head? = some d → d ∉ ['N', 'Y', '0', '1']) (W w :: ts) := by
    intro w hc
    cases hw : w.toList with
    | nil => rw [hw] at hc; cases hc
    | cons c w' =>
    rw [hw] at hc
    replace hc : c.toLower ∉ ['n', 'y', '0', '1'] := by simpa using hc
    refine first_word w c w' hw ts fun d hd _ e he => ?_
    cases he
    intro hm
    rw [← hd] at hc
    apply hc
    simp only [List.mem_cons, List.not_mem_nil, or_false] at hm
    rcases hm with rfl | rfl | rfl | rfl <;> decide
  exact key _ (objWords_all (p := fun w => (match w.toList with | c :: _ => !['n', 'y', '0', '1'].contains c.toLower | [] => false) = true) (by decide) o)

theorem foll_obj (l : List (Extra × PObj ℚ)) (hl : DiesLast l) :
    Foll (fun o => Follow o.1 o.2) (fun o => objToks o.1 o.2) [closeB] l := by
  induction l with
  | nil => trivial
  | cons a l ih =>
    obtain ⟨x, o⟩ := a
    cases l with
    | nil =>
      refine ⟨?_, trivial⟩
      refine first_str '}' [] [] fun s => ?_
      cases o with
      | via => intro _ d hd; cases hd; decide
      | bondwire => intro _ d hd; cases hd; rfl
      | _ => trivial
    | cons b l =>
      refine ⟨?_, ih hl.2⟩
      obtain ⟨ts, e, _⟩ := objToks_head b.1 b.2
      rw [List.flatMap_cons, e, List.append_assoc]
      have h1 := hl.1
      have hf := first_obj b.2 (I (objLayer b.2) :: ts ++ (l.flatMap (fun o => objToks o.1 o.2) ++ [closeB]))
      obtain ⟨y, ys, e2, hy⟩ := hf
      refine ⟨y, ys, e2, fun u hu ho s => ?_⟩
      cases o with
      | via => intro _; exact hy u hu ho s
      | bondwire => intro hd; exact absurd hd h1
      | _ => trivial

/-- Routes are read as they are written, if there is no diamond and no arc of three points, mirrors of shapes are `N` or `Y`, and bond wires
without dies are last. -/
theorem reads_route (net : Str) (l : List (Extra × PObj ℚ)) (hn : Quoted net) (hl : ∀ o ∈ l, GoodObj o.1 o.2) (hd : DiesLast l) :
    Reads Any route (routeToks net l) (net, l.map Prod.snd) := by
  refine (reads_textDQ net hn).one ((reads_lit ['{']).one ?_ (hd_flatMap l (fun o _ => hd_obj o.1 o.2) (Hd.tok _ _)).sp) trivial
  refine Reads.starX (G := fun o => Follow o.1 o.2) (val := Prod.snd) l (fun o ho => ⟨reads_obj o.1 o.2 (hl o ho), hd_obj o.1 o.2⟩) (foll_obj l hd)
    (Hd.tok _ _) (failsAt_obj.fails (first_str '}' [] [] ?_)) ((reads_lit ['}']).last fun _ => rfl)
  intro s d hd; cases hd; rfl

end Ecad.XflP
