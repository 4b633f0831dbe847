import Verif.Xfl.ParserRoute
/-!
C105: the routes of an XFL file are read as they are written.
-/
namespace Ecad.XflP
open Ecad.Xfl

/-! ### arcs of three points -/

theorem toLower_three {d : Char} (h : d.toLower = '3') : d = '3' := by
  unfold Char.toLower at h
  split at h
  · rename_i hu
    exfalso
    have h1 : (65 : UInt32) ≤ d.val := hu.1
    have h2 : d.val ≤ (90 : UInt32) := hu.2
    have h3 := congrArg (fun c : Char => c.val.toNat) h
    have h4 : (d.val + (97 - 65)).toNat = 51 := h3
    rw [UInt32.le_iff_toNat_le] at h1 h2
    rw [UInt32.toNat_add] at h4
    have h5 : ((97 : UInt32) - 65).toNat = 32 := rfl
    rw [h5] at h4
    have h6 : (65 : UInt32).toNat = 65 := rfl
    have h7 : (90 : UInt32).toNat = 90 := rfl
    omega
  · exact h

theorem numText_three : NumText ['3'] 3 :=
  ⟨[], 1, ['3'], [], [], [], 0, .none, by decide, .none, by simp, .none, rfl, by
    have : Nat.ofDigitChars 10 ['3'] 0 = 3 := rfl
    have h0 : Nat.ofDigitChars 10 ([] : List Char) 0 = 0 := rfl
    rw [this, h0]; norm_num⟩

/-- `ARC3` is `ARC` with the number 3. -/
theorem kw_arc3 {b : Bool} {ts : List Tok} {s : Str} (h : Writes b (W "ARC3" :: ts) s) (r : Str) :
    ∃ s', kw "ARC" (s ++ r) = some ((), s' ++ r) ∧ Writes true (N 3 :: ts) s' := by
  cases h with
  | tok _ _ _ g u s hg hb hu ho hs =>
    have hu : u.map Char.toLower = "ARC3".toList.map Char.toLower := hu
    have e : "ARC3".toList.map Char.toLower = ['a', 'r', 'c', '3'] := by decide
    rw [e] at hu
    obtain ⟨a1, a2, a3, a4, rfl⟩ : ∃ a1 a2 a3 a4, u = [a1, a2, a3, a4] := by
      have hl := congrArg List.length hu
      match u, hl with
      | [a1, a2, a3, a4], _ => exact ⟨a1, a2, a3, a4, rfl⟩
    · simp only [List.map_cons, List.map_nil, List.cons.injEq, and_true] at hu
      obtain ⟨h1, h2, h3, h4⟩ := hu
      have h4 := toLower_three h4
      subst h4
      refine ⟨['3'] ++ s, ?_, ?_⟩
      · unfold kw
        rw [List.append_assoc, List.append_assoc]
        refine (lex_tok _ hg ho _).trans ?_
        have : strip Char.toLower "ARC".toList ([a1, a2, a3] ++ (['3'] ++ s ++ r)) = some (['3'] ++ s ++ r) := by
          refine strip_text _ _ _ _ ?_
          simp only [List.map_cons, List.map_nil, h1, h2, h3]
          decide
        have e2 : [a1, a2, a3, '3'] ++ (s ++ r) = [a1, a2, a3] ++ (['3'] ++ s ++ r) := by simp
        show Option.map _ (strip _ _ ([a1, a2, a3, '3'] ++ (s ++ r))) = _
        rw [e2, this]; rfl
      · exact Writes.tok true (.num 3) ts [] ['3'] s .nil (by simp) numText_three ⟨'3', [], rfl, by unfold Blank; decide, by decide⟩ hs

/-- what comes next is not the closing brace -/
def NotClose : Str → Prop := fun o => o.head? ≠ some '}'

theorem first_num_notClose (q : ℚ) (ts : List Tok) : First NotClose (N q :: ts) :=
  first_num q ts fun c hc _ => by rintro e; cases e; revert hc; decide

theorem seg_num_fails (q : ℚ) (us : List Tok) (hu : First NoNum us) : Fails seg (N q :: us) := by
  refine Fails.or (Fails.bind ((reads_num q).fails1 (failsAt_num.bind _ |>.fails hu) hu.hd.sp) _) ?_
  refine Fails.bind (.or ?_ (.or ?_ ?_)) _ <;>
  · refine FailsAt.fails (F := fun o => ∀ d, o.head? = some d → numStart d = true) (((failsAt_kw _ rfl).mono ?_).bind _) (first_num q us ?_)
    · intro o ho d hd e
      have h := ho d hd
      have := numStart_lower h
      rw [this] at e
      rw [← e] at h
      revert h; decide
    · intro c hc _ d hd; cases hd; exact hc

/-- an odd count of numbers is not read to its end -/
theorem odd_left (pts : List (ℚ × ℚ)) (us : List Tok) (hu : First NoNum us) (n : Nat) (q : ℚ) {b : Bool} {s r : Str}
    (hs : Writes b (N q :: (pts.flatMap ptToks ++ us)) s) (hr : Ends b (N q :: (pts.flatMap ptToks ++ us)) r) :
    NotClose (skip (starN seg n (s ++ r)).2) := by
  induction pts generalizing q b s n with
  | nil =>
    have h0 := (first_num_notClose q _).skip hs r
    cases n with
    | zero => exact h0
    | succ n => simp only [starN, seg_num_fails q us hu b s r hs hr]; exact h0
  | cons p pts ih =>
    have h0 := (first_num_notClose q _).skip hs r
    cases n with
    | zero => exact h0
    | succ n =>
      have e : N q :: ((p :: pts).flatMap ptToks ++ us) = ptToks (q, p.1) ++ (N p.2 :: (pts.flatMap ptToks ++ us)) := rfl
      rw [e] at hs
      unfold Ends at hr
      rw [e, after_append] at hr
      obtain ⟨s1, s2, rfl, h1, h2⟩ := hs.split
      have e2 := reads_seg (.pt (q, p.1)) trivial b s1 (s2 ++ r) h1 (h2.ends trivial hr) trivial
      have := ih n p.2 h2 hr
      rw [List.append_assoc]
      simp only [starN, e2]
      exact this

/-- points before the next arc or the end -/
theorem points_split (l : List (Seg ℚ)) : ∃ (pts : List (ℚ × ℚ)) (us : List Tok), l.flatMap segToks ++ [closeB] = pts.flatMap ptToks ++ us ∧ First NoNum us := by
  induction l with
  | nil => exact ⟨[], [closeB], rfl, first_str '}' [] [] noNum_close⟩
  | cons x l ih =>
    cases x with
    | pt p =>
      obtain ⟨pts, us, e, h⟩ := ih
      refine ⟨p :: pts, us, ?_, h⟩
      rw [List.flatMap_cons, List.append_assoc, e]
      simp [segToks]
    | arc t e m =>
      refine ⟨[], segToks (.arc t e m) ++ (l.flatMap segToks ++ [closeB]), by simp, First.app ?_ _⟩
      show First NoNum (W (arcWord t) :: _)
      unfold arcWord
      split
      · exact first_noNum "ARC" 'A' _ rfl rfl _
      · split
        · exact first_noNum "RARC" 'R' _ rfl rfl _
        · exact first_noNum "ARC3" 'A' _ rfl rfl _

/-- arcs of three points -/
def Arc3 : Seg ℚ → Prop
  | .pt _ => False
  | .arc t _ _ => t ≠ 0 ∧ t ≠ 1

theorem arc3_left (x : Seg ℚ) (hx : Arc3 x) (l : List (Seg ℚ)) (n : Nat) {b : Bool} {s r : Str}
    (hs : Writes b (segToks x ++ (l.flatMap segToks ++ [closeB])) s) (hr : Ends b (segToks x ++ (l.flatMap segToks ++ [closeB])) r) :
    NotClose (skip (starN seg n (s ++ r)).2) := by
  cases x with
  | pt => exact absurd hx id
  | arc t e m =>
    have ht : arcWord t = "ARC3" := by unfold arcWord; rw [if_neg hx.1, if_neg hx.2]
    have hf : First NotClose (segToks (.arc t e m)) := by
      show First NotClose (W (arcWord t) :: _)
      rw [ht]
      refine first_word "ARC3" 'A' _ rfl _ fun d hd _ => ?_
      rintro h; cases h; revert hd; decide
    have h0 := (hf.app _).skip hs r
    cases n with
    | zero => exact h0
    | succ n =>
      have hfn : First NoNum (segToks (.arc t e m)) := by show First NoNum (W (arcWord t) :: _); rw [ht]; exact first_noNum "ARC3" 'A' _ rfl rfl _
      obtain ⟨pts, us, e1, hu⟩ := points_split l
      rw [e1] at hs hr
      have e2 : segToks (.arc t e m) ++ (pts.flatMap ptToks ++ us) = W "ARC3" :: (ptToks e ++ (ptToks m ++ (pts.flatMap ptToks ++ us))) := by
        show W (arcWord t) :: (ptToks e ++ ptToks m) ++ _ = _
        rw [ht]; simp
      have hpt : (do let p ← point; pure (Seg.pt p) : P (Seg ℚ)) (s ++ r) = none := (failsAt_point.bind _) _ ((hfn.app _).skip hs r)
      rw [e2] at hs
      have hr' : Ends true (N 3 :: (ptToks e ++ (ptToks m ++ (pts.flatMap ptToks ++ us)))) r := by
        rw [e2] at hr; exact hr
      obtain ⟨s', hk, hs'⟩ := kw_arc3 hs r
      have e3 : N 3 :: (ptToks e ++ (ptToks m ++ (pts.flatMap ptToks ++ us))) =
          ptToks (3, e.1) ++ (ptToks (e.2, m.1) ++ (N m.2 :: (pts.flatMap ptToks ++ us))) := rfl
      rw [e3] at hs'
      unfold Ends at hr'
      rw [e3, after_append] at hr'
      obtain ⟨s1, s2, rfl, h1, h2⟩ := hs'.split
      have hp1 := reads_point (3, e.1) true s1 (s2 ++ r) h1 (h2.ends trivial hr') trivial
      rw [after_append] at hr'
      obtain ⟨s3, s4, rfl, h3, h4⟩ := h2.split
      have hp2 := reads_point (e.2, m.1) _ s3 (s4 ++ r) h3 (h4.ends trivial hr') trivial
      have hseg : seg (s ++ r) = some (.arc 0 (3, e.1) (e.2, m.1), s4 ++ r) := by
        unfold seg P.or
        rw [hpt]
        unfold arc
        have ha : (((do kw "ARC"; pure 0) : P Int).or (((do kw "RARC"; pure 1) : P Int).or (do kw "ARC3"; pure 2))) (s ++ r) =
            some (0, s1 ++ (s3 ++ s4) ++ r) := by
          unfold P.or
          rw [bind_some hk]; rfl
        refine (bind_some ha).trans ?_
        simp only [List.append_assoc] at hp1 hp2 ⊢
        rw [bind_some hp1, bind_some hp2]; rfl
      simp only [starN, hseg]
      exact odd_left pts us hu n m.2 h4 hr'

/-- Composites with an arc of three points are not read. -/
theorem fails_composite (p : ℚ × ℚ) (l1 : List (Seg ℚ)) (x : Seg ℚ) (l2 : List (Seg ℚ)) (h1 : ∀ y ∈ l1, GoodSeg y) (hx : Arc3 x) :
    Fails composite (compToks (.pt p :: (l1 ++ x :: l2))) := by
  have hh := hd_flatMap (us := [closeB]) (l1 ++ x :: l2) (fun y _ => hd_seg y) (Hd.tok _ _)
  refine (reads_lit ['{']).fails1 (us := ptToks p ++ ((l1 ++ x :: l2).flatMap segToks ++ [closeB])) ?_ trivial
  refine (reads_point p).fails ?_ hh.sp
  intro b s r hs hr
  have key : ∀ n, NotClose (skip (starN seg n (s ++ r)).2) := by
    intro n
    clear hh
    induction l1 generalizing b s n with
    | nil =>
      rw [List.nil_append, List.flatMap_cons, List.append_assoc] at hs hr
      exact arc3_left x hx l2 n hs hr
    | cons y l1 ih =>
      rw [List.cons_append, List.flatMap_cons, List.append_assoc] at hs hr
      have h0 : NotClose (skip (s ++ r)) := by
        refine First.skip (First.app ?_ _) hs r
        cases y with
        | pt p => exact first_num_notClose _ _
        | arc t e m =>
          rcases h1 (.arc t e m) (by simp) with rfl | rfl
          · refine first_word "ARC" 'A' _ rfl _ fun d hd _ => ?_
            rintro h; cases h; revert hd; decide
          · refine first_word "RARC" 'R' _ rfl _ fun d hd _ => ?_
            rintro h; cases h; revert hd; decide
      cases n with
      | zero => exact h0
      | succ n =>
        unfold Ends at hr
        rw [after_append] at hr
        obtain ⟨s1, s2, rfl, h1', h2⟩ := hs.split
        have hh := hd_flatMap (us := [closeB]) (l1 ++ x :: l2) (fun y _ => hd_seg y) (Hd.tok _ _)
        have e2 := reads_seg y (h1 y (by simp)) b s1 (s2 ++ r) h1' (h2.ends hh.sp hr) trivial
        have := ih (fun z hz => h1 z (List.mem_cons_of_mem _ hz)) _ s2 h2 hr n
        rw [List.append_assoc]
        simp only [starN, e2]
        exact this
  have e : star seg (s ++ r) = some (starN seg ((s ++ r).length + 1) (s ++ r)) := rfl
  rw [bind_some (a := (starN seg ((s ++ r).length + 1) (s ++ r)).1) (r := (starN seg ((s ++ r).length + 1) (s ++ r)).2) e]
  exact bind_none (failsAt_lit [] _ (key _))

/-! ### objects that are not read -/

/-- composites with an arc of three points -/
def BadComp : List (Seg ℚ) → Prop
  | .pt _ :: l => ∃ l1 x l2, l = l1 ++ x :: l2 ∧ (∀ y ∈ l1, GoodSeg y) ∧ Arc3 x
  | _ => False

theorem fails_badComp (l : List (Seg ℚ)) (h : BadComp l) : Fails composite (compToks l) := by
  match l, h with
  | .pt p :: l, ⟨l1, x, l2, e, h1, hx⟩ => subst e; exact fails_composite p l1 x l2 h1 hx

/-- Diamonds, arcs of three points, shapes mirrored at the x axis -/
def BadObj : PObj ℚ → Prop
  | .path _ _ p => BadComp p
  | .diamond .. => True
  | .composite _ _ c => BadComp c
  | .shape _ _ _ _ _ m _ => m = 'X'
  | _ => False

theorem fails_shapeX (r : ℚ) (t : Bool) :
    Fails (rotMirror fun c => ['N', 'Y'].contains c) (if t then [N r, S ['X']] else [S ['X'], N r]) := by
  have hx : ∀ ts, Fails (chr fun c => ['N', 'Y'].contains c) (S ['X'] :: ts) := fun ts =>
    (failsAt_chr _).fails (first_str 'X' [] ts (by intro s d hd; cases hd; rfl))
  cases t with
  | true =>
    refine Fails.or ((reads_num r).fails1 ((hx []).bind _) trivial) (Fails.bind ?_ _)
    refine (failsAt_chr _).fails (first_num r _ fun c hc _ d hd => ?_)
    cases hd
    cases hh : ['N', 'Y'].contains c with
    | false => rfl
    | true =>
      simp only [List.contains_iff_mem, List.mem_cons, List.not_mem_nil, or_false] at hh
      rcases hh with rfl | rfl <;> revert hc <;> decide
  | false =>
    refine Fails.or ?_ ((hx _).bind _)
    exact (failsAt_num.bind _).fails (first_str 'X' [] _ (by intro s d hd; cases hd; rfl))

theorem fails_badObj (x : Extra) (o : PObj ℚ) (h : BadObj o) : Fails (alts objAlts) (objToks x o) := by
  cases o with
  | path l w p =>
    refine fails_all "path" _ (by trivial) 0 (by decide) fun q hq => ?_
    cases hq
    exact (reads_kw _).fails1 ((reads_int l).fails1 ((reads_num w).fails1 ((fails_badComp p h).bind _) trivial) trivial) trivial
  | diamond v l w p =>
    cases v
    · exact fails_all "diamond" _ (by trivial) 10 (by decide) fun q hq => by cases hq
    · exact fails_all "void_diamond" _ (by trivial) 10 (by decide) fun q hq => by cases hq
  | composite v l c =>
    have hq : Fails instComposite (objToks x (.composite v l c)) :=
      (reads_solid "composite" v (by decide)).fails1 ((reads_int l).fails1 ((fails_badComp c h).bind _) trivial) trivial
    cases v
    · exact fails_all "composite" _ (by trivial) 8 (by decide) fun q hq' => by cases hq'; exact hq
    · exact fails_all "void_composite" _ (by trivial) 8 (by decide) fun q hq' => by cases hq'; exact hq
  | shape v l i p r m t =>
    have h : m = 'X' := h
    subst h
    have hq : Fails instShape (objToks x (.shape v l i p r 'X' t)) := by
      refine (reads_solid "shape" v (by decide)).fails1 ((reads_int l).fails1 ((reads_int i).fails1 ((reads_point p).fails
        (us := if t then [N r, S ['X']] else [S ['X'], N r]) ((fails_shapeX r t).bind _) ?_) trivial) trivial) trivial
      cases t <;> trivial
    cases v
    · exact fails_all "shape" _ (by trivial) 9 (by decide) fun q hq' => by cases hq'; exact hq
    · exact fails_all "void_shape" _ (by trivial) 9 (by decide) fun q hq' => by cases hq'; exact hq
  | _ => exact absurd h id

/-- Bond wires name their dies. -/
def DiesAll (l : List (Extra × PObj ℚ)) : Prop := ∀ a ∈ l, match a.2 with | .bondwire .. => a.1.dies ≠ none | _ => True

theorem foll_word (l : List (Extra × PObj ℚ)) (hl : DiesAll l) (o : PObj ℚ) (ts : List Tok) :
    Foll (fun o => Follow o.1 o.2) (fun o => objToks o.1 o.2) (W (objWord o) :: ts) l := by
  induction l with
  | nil => trivial
  | cons a l ih =>
    obtain ⟨x, c⟩ := a
    refine ⟨?_, ih fun y hy => hl y (List.mem_cons_of_mem _ hy)⟩
    have hf : First (fun c => ∀ d, c.head? = some d → d ∉ ['N', 'Y', '0', '1']) (l.flatMap (fun o => objToks o.1 o.2) ++ W (objWord o) :: ts) := by
      cases l with
      | nil => exact first_obj o ts
      | cons b l =>
        obtain ⟨ts', e, _⟩ := objToks_head b.1 b.2
        rw [List.flatMap_cons, e, List.append_assoc]
        exact first_obj b.2 _
    obtain ⟨y, ys, e2, hy⟩ := hf
    refine ⟨y, ys, e2, fun u hu ho s => ?_⟩
    cases c with
    | via => intro _; exact hy u hu ho s
    | bondwire => intro hd; exact absurd hd (hl (x, _) (List.mem_cons_self ..))
    | _ => trivial

theorem first_word_notClose (o : PObj ℚ) (ts : List Tok) : First NotClose (W (objWord o) :: ts) := by
  have h := objWords_all (p := fun w => (match w.toList with | c :: _ => c.toLower != '}' | [] => false) = true) (by decide) o
  cases hw : (objWord o).toList with
  | nil => rw [hw] at h; cases h
  | cons c w' =>
    rw [hw] at h
    refine first_word _ c w' hw ts fun d hd _ => ?_
    rintro e; cases e
    have h : (c.toLower != '}') = true := h
    rw [← hd] at h; revert h; decide

theorem fails_routeBad (net : Str) (l1 : List (Extra × PObj ℚ)) (x : Extra) (o : PObj ℚ) (l2 : List (Extra × PObj ℚ)) (hn : Quoted net)
    (h1 : ∀ a ∈ l1, GoodObj a.1 a.2) (hd : DiesAll l1) (ho : BadObj o) : Fails route (routeToks net (l1 ++ (x, o) :: l2)) := by
  refine (reads_textDQ net hn).fails1 ((reads_lit ['{']).fails1 ?_ (hd_flatMap _ (fun o _ => hd_obj o.1 o.2) (Hd.tok _ _)).sp) trivial
  rw [List.flatMap_append, List.append_assoc, List.flatMap_cons, List.append_assoc]
  have hh := hd_flatMap (us := [closeB]) l2 (fun o _ => hd_obj o.1 o.2) (Hd.tok _ _)
  refine Fails.starX (G := fun o => Follow o.1 o.2) (val := Prod.snd) l1 (fun o ho => ⟨reads_obj o.1 o.2 (h1 o ho), hd_obj o.1 o.2⟩) ?_
    ((hd_obj x o).app _) ((fails_badObj x o ho).app _ hh.sp) ?_
  · obtain ⟨ts, e, _⟩ := objToks_head x o
    show Foll _ _ (objToks x o ++ _) l1
    rw [e]
    exact foll_word l1 hd o _
  · obtain ⟨ts, e, _⟩ := objToks_head x o
    show Fails _ (objToks x o ++ _)
    rw [e]
    exact ((failsAt_lit []).fails (first_word_notClose o _)).bind _

/-! ### bond wires without dies -/

/-- the text of a keyword, or of a number without `+`, is a name -/
theorem word_name (o : PObj ℚ) {u : Str} (h : (Lit.word (objWord o)).Text u) : Name u := by
  have h : u.map Char.toLower = (objWord o).toList.map Char.toLower := h
  have hw := objWords_all (p := fun w => w.toList ≠ [] ∧ ∀ c ∈ w.toList, c.toLower = '_' ∨ ('a' ≤ c.toLower ∧ c.toLower ≤ 'z')) (by decide) o
  constructor
  · rintro rfl
    have := hw.1
    cases e : (objWord o).toList with
    | nil => exact this e
    | cons c w => rw [e] at h; cases h
  · intro c hc
    have hc2 : c.toLower ∈ (objWord o).toList.map Char.toLower := h ▸ List.mem_map_of_mem hc
    obtain ⟨d, hd, e⟩ := List.mem_map.1 hc2
    have := hw.2 d hd
    rw [e] at this
    unfold Char.toLower at this
    split at this
    · rename_i hu
      left
      have : c.isUpper = true := by
        simp only [Char.isUpper, Bool.and_eq_true, decide_eq_true_eq]; exact hu
      simp [Char.isAlphanum, Char.isAlpha, this]
    · rcases this with rfl | ⟨h1, h2⟩
      · simp
      · left
        have : c.isLower = true := by
          simp only [Char.isLower, Bool.and_eq_true, decide_eq_true_eq]; exact ⟨h1, h2⟩
        simp [Char.isAlphanum, Char.isAlpha, this]

theorem int_name {u : Str} {v : Int} (h : IntText u v) (hp : '+' ∉ u) : Name u := by
  obtain ⟨sg, k, ds, hs, hd, rfl, _⟩ := h
  constructor
  · intro e; exact hd.1 (List.append_eq_nil_iff.1 e).2
  · intro c hc
    rcases List.mem_append.1 hc with hc | hc
    · cases hs with
      | none => cases hc
      | plus => exact absurd (by simp) hp
      | minus => simp at hc; simp [hc]
    · left; simp [Char.isAlphanum, hd.2 c hc]

/-- the same text as other tokens -/
theorem Writes.retok {b : Bool} {o : PObj ℚ} {v : Int} {ts : List Tok} {s : Str} (h : Writes b (W (objWord o) :: I v :: ts) s) (hp : '+' ∉ s) :
    ∃ u1 u2, Name u1 ∧ Name u2 ∧ Writes b (S u1 :: S u2 :: ts) s := by
  cases h with
  | tok _ _ _ g u s hg hb hu ho hs =>
    cases hs with
    | tok _ _ _ g' u' s hg' hb' hu' ho' hs =>
      refine ⟨u, u', word_name o hu, int_name hu' (fun h => hp (by simp [h])), ?_⟩
      exact .tok b (.str u) _ g u _ hg hb rfl ho (.tok false (.str u') _ g' u' _ hg' hb' rfl ho' hs)

/-- what comes after layer of an object is no keyword and no brace -/
theorem objToks_third (x : Extra) (o : PObj ℚ) : ∃ ts, objToks x o = W (objWord o) :: I (objLayer o) :: ts ∧
    First (fun c => ∀ d, c.head? = some d → objStart d = false ∧ d ≠ '}') ts := by
  have hnum : ∀ c, numStart c = true → ∀ (s : Str) (d : Char), (c :: s).head? = some d → objStart d = false ∧ d ≠ '}' := by
    intro c hc _ d hd
    cases hd
    constructor
    · unfold objStart
      rw [numStart_lower hc]
      cases hh : ['p', 'v', 'b', 'r', 's', 'c', 'a'].contains c with
      | false => rfl
      | true =>
        simp only [List.contains_iff_mem, List.mem_cons, List.not_mem_nil, or_false] at hh
        rcases hh with rfl | rfl | rfl | rfl | rfl | rfl | rfl <;> revert hc <;> decide
    · rintro rfl; revert hc; decide
  have hop : ∀ ts, First (fun c => ∀ d, c.head? = some d → objStart d = false ∧ d ≠ '}') (openB :: ts) := fun ts =>
    first_str '{' [] ts (by intro s d hd; cases hd; decide)
  cases o with
  | polygon v l p => cases v <;> exact ⟨_, rfl, hop _⟩
  | composite v l c => cases v <;> exact ⟨_, rfl, hop _⟩
  | rectangle v | square v | diamond v | circle v => cases v <;> exact ⟨_, rfl, first_num _ _ hnum⟩
  | shape v => cases v <;> exact ⟨_, rfl, first_int _ _ hnum⟩
  | via => exact ⟨_, rfl, first_int _ _ hnum⟩
  | bondwire => exact ⟨_, rfl, first_int _ _ hnum⟩
  | path => exact ⟨_, rfl, first_num _ _ hnum⟩
  | annular => exact ⟨_, rfl, first_num _ _ hnum⟩

theorem fails_routeWire (net : Str) (l1 : List (Extra × PObj ℚ)) (x : Extra) (a e i : Int) (p q : ℚ × ℚ) (y : Extra) (o : PObj ℚ)
    (l2 : List (Extra × PObj ℚ)) (hn : Quoted net) (h1 : ∀ a ∈ l1, GoodObj a.1 a.2) (hd : DiesAll l1) (hx : x.dies = none)
    (b : Bool) (s r : Str) (hs : Writes b (routeToks net (l1 ++ (x, .bondwire a e i p q) :: (y, o) :: l2)) s) (hp : '+' ∉ s)
    (hr : Ends b (routeToks net (l1 ++ (x, .bondwire a e i p q) :: (y, o) :: l2)) r) : route (s ++ r) = none := by
  obtain ⟨ts, e1, hf⟩ := objToks_third y o
  have ew : objToks x (.bondwire a e i p q) = [W "bondwire", I a, I e, I i, N p.1, N p.2, N q.1, N q.2] := by
    unfold objToks; rw [hx]
  have et : routeToks net (l1 ++ (x, .bondwire a e i p q) :: (y, o) :: l2) =
      (Q net :: openB :: (l1.flatMap (fun o => objToks o.1 o.2) ++ [W "bondwire", I a, I e, I i, N p.1, N p.2, N q.1, N q.2])) ++
        (W (objWord o) :: I (objLayer o) :: (ts ++ (l2.flatMap (fun o => objToks o.1 o.2) ++ [closeB]))) := by
    unfold routeToks
    rw [List.flatMap_append, List.flatMap_cons, List.flatMap_cons, ew, e1]
    simp
  rw [et] at hs
  unfold Ends at hr
  rw [et, after_append] at hr
  obtain ⟨s1, s2, rfl, hs1, hs2⟩ := hs.split
  obtain ⟨u1, u2, hu1, hu2, hs3⟩ := hs2.retok (fun h => hp (by simp [h]))
  have hs4 := hs1.append hs3
  have ex : objToks ⟨some (u1, u2), false⟩ (.bondwire a e i p q) = [W "bondwire", I a, I e, I i, N p.1, N p.2, N q.1, N q.2, S u1, S u2] := rfl
  have et2 : (Q net :: openB :: (l1.flatMap (fun o => objToks o.1 o.2) ++ [W "bondwire", I a, I e, I i, N p.1, N p.2, N q.1, N q.2])) ++
        (S u1 :: S u2 :: (ts ++ (l2.flatMap (fun o => objToks o.1 o.2) ++ [closeB]))) =
      Q net :: openB :: ((l1 ++ [((⟨some (u1, u2), false⟩ : Extra), PObj.bondwire a e i p q)]).flatMap (fun o => objToks o.1 o.2) ++
        (ts ++ (l2.flatMap (fun o => objToks o.1 o.2) ++ [closeB]))) := by
    rw [List.flatMap_append, List.flatMap_cons, ex]
    simp
  have key : Fails route (Q net :: openB :: ((l1 ++ [((⟨some (u1, u2), false⟩ : Extra), PObj.bondwire a e i p q)]).flatMap (fun o => objToks o.1 o.2) ++
        (ts ++ (l2.flatMap (fun o => objToks o.1 o.2) ++ [closeB])))) := by
    have hus := hf.app (l2.flatMap (fun o => objToks o.1 o.2) ++ [closeB])
    refine (reads_textDQ net hn).fails1 ((reads_lit ['{']).fails1 ?_ (hd_flatMap _ (fun o _ => hd_obj o.1 o.2) hus.hd).sp) trivial
    refine Fails.starX (G := fun o => Follow o.1 o.2) (val := Prod.snd) _ ?_ ?_ hus.hd ?_ ?_
    · intro c hc
      refine ⟨reads_obj c.1 c.2 ?_, hd_obj c.1 c.2⟩
      rcases List.mem_append.1 hc with hc | hc
      · exact h1 c hc
      · simp only [List.mem_singleton] at hc
        subst hc
        intro d hd; cases hd; exact ⟨hu1, hu2⟩
    · refine foll_append l1 _ ?_ ⟨?_, trivial⟩
      · exact foll_word l1 hd (.bondwire a e i p q) _
      · obtain ⟨z, zs, e4, _⟩ := hus
        refine ⟨z, zs, e4, fun u _ _ _ hc => ?_⟩
        cases hc
    · exact (failsAt_obj.mono fun c hc d hd => (hc d hd).1).fails hus
    · refine Fails.bind (((failsAt_lit []).mono fun c hc => ?_).fails hus) _
      intro e; exact (hc _ e).2 rfl
  rw [et2] at hs4
  refine key b _ r hs4 ?_
  unfold Ends
  rw [← et2, after_append]
  exact hr

/-! ### which routes are read -/

/-- Composites as the format has them: they begin with a point; arcs are of types 0 (`ARC`), 1 (`RARC`), 2 (`ARC3`). -/
def WfComp : List (Seg ℚ) → Prop
  | .pt _ :: l => ∀ x ∈ l, match x with | .pt _ => True | .arc t _ _ => t = 0 ∨ t = 1 ∨ t = 2
  | _ => False

/-- Objects as the format has them -/
def WfObj (x : Extra) : PObj ℚ → Prop
  | .path _ _ p => WfComp p
  | .via _ _ n _ _ m => Name n ∧ (if x.mirror then m ∈ ['N', 'Y', '0', '1'] else m = 'N')
  | .bondwire _ _ _ _ _ => ∀ d, x.dies = some d → Name d.1 ∧ Name d.2
  | .composite _ _ c => WfComp c
  | .shape _ _ _ _ _ m _ => m = 'N' ∨ m = 'Y' ∨ m = 'X'
  | _ => True

theorem wf_comp (l : List (Seg ℚ)) (h : WfComp l) : GoodComp l ∨ BadComp l := by
  match l, h with
  | .pt p :: l, h =>
    have key : (∀ y ∈ l, GoodSeg y) ∨ ∃ l1 x l2, l = l1 ++ x :: l2 ∧ (∀ y ∈ l1, GoodSeg y) ∧ Arc3 x := by
      have h : ∀ x ∈ l, match x with | .pt _ => True | .arc t _ _ => t = 0 ∨ t = 1 ∨ t = 2 := h
      induction l with
      | nil => left; simp
      | cons y l ih =>
        have hy := h y (by simp)
        have hc : GoodSeg y ∨ Arc3 y := by
          cases y with
          | pt p => exact Or.inl trivial
          | arc t e m =>
            rcases hy with rfl | rfl | rfl
            · exact Or.inl (Or.inl rfl)
            · exact Or.inl (Or.inr rfl)
            · exact Or.inr ⟨by decide, by decide⟩
        rcases hc with hc | hc
        · have hw : WfComp (.pt p :: l) := fun x hx => h x (List.mem_cons_of_mem _ hx)
          rcases ih hw (fun x hx => h x (List.mem_cons_of_mem _ hx)) with ih | ⟨l1, x, l2, rfl, h1, hx⟩
          · left; intro z hz; rcases List.mem_cons.1 hz with rfl | hz
            · exact hc
            · exact ih z hz
          · right; refine ⟨y :: l1, x, l2, rfl, ?_, hx⟩
            intro z hz; rcases List.mem_cons.1 hz with rfl | hz
            · exact hc
            · exact h1 z hz
        · right; exact ⟨[], y, l, rfl, by simp, hc⟩
    exact key

theorem wf_obj (x : Extra) (o : PObj ℚ) (h : WfObj x o) : GoodObj x o ∨ BadObj o := by
  cases o with
  | path l w p => exact wf_comp p h
  | composite v l c => exact wf_comp c h
  | diamond => exact Or.inr trivial
  | shape v l i p r m t =>
    rcases h with h | h | h
    · exact Or.inl (Or.inl h)
    · exact Or.inl (Or.inr h)
    · exact Or.inr h
  | via => exact Or.inl h
  | bondwire => exact Or.inl h
  | _ => exact Or.inl trivial

theorem badComp_not (l : List (Seg ℚ)) (h : BadComp l) : ¬ GoodComp l := by
  match l, h with
  | .pt p :: _, ⟨l1, .arc t e m, l2, rfl, _, hx⟩ =>
    intro hg
    have := hg (.arc t e m) (by simp)
    rcases this with h | h
    · exact hx.1 h
    · exact hx.2 h

theorem badObj_not (x : Extra) (o : PObj ℚ) (h : BadObj o) : ¬ GoodObj x o := by
  cases o with
  | path l w p => exact badComp_not p h
  | composite v l c => exact badComp_not c h
  | diamond => exact id
  | shape v l i p r m t =>
    intro hg
    have h : m = 'X' := h
    subst h
    rcases hg with hg | hg <;> revert hg <;> decide
  | _ => exact absurd h id

/-- a bond wire without names of dies -/
def Bare (a : Extra × PObj ℚ) : Prop := match a.2 with | .bondwire .. => a.1.dies = none | _ => False

theorem bare_cases (a : Extra × PObj ℚ) : Bare a ∨ (match a.2 with | .bondwire .. => a.1.dies ≠ none | _ => True) := by
  obtain ⟨x, o⟩ := a
  cases o with
  | bondwire => exact em _
  | _ => exact Or.inr trivial

theorem diesLast_cons (a b : Extra × PObj ℚ) (l : List (Extra × PObj ℚ)) :
    DiesLast (a :: b :: l) ↔ (match a.2 with | .bondwire .. => a.1.dies ≠ none | _ => True) ∧ DiesLast (b :: l) := Iff.rfl

/-- the first object that is not read -/
theorem first_trouble (l : List (Extra × PObj ℚ)) (hw : ∀ a ∈ l, WfObj a.1 a.2) :
    ((∀ a ∈ l, GoodObj a.1 a.2) ∧ DiesLast l) ∨
    (∃ l1 a l2, l = l1 ++ a :: l2 ∧ (∀ c ∈ l1, GoodObj c.1 c.2) ∧ DiesAll l1 ∧ (BadObj a.2 ∨ (Bare a ∧ l2 ≠ []))) := by
  induction l with
  | nil => left; exact ⟨by simp, trivial⟩
  | cons a l ih =>
    rcases wf_obj a.1 a.2 (hw a (by simp)) with hg | hb
    · by_cases hl : l = []
      · subst hl; left; exact ⟨by simpa using hg, trivial⟩
      · rcases bare_cases a with hbare | hd
        · right; exact ⟨[], a, l, rfl, by simp, (by intro c hc; cases hc), Or.inr ⟨hbare, hl⟩⟩
        · rcases ih (fun c hc => hw c (List.mem_cons_of_mem _ hc)) with ⟨h1, h2⟩ | ⟨l1, c, l2, rfl, h1, h2, h3⟩
          · left
            refine ⟨fun c hc => ?_, ?_⟩
            · rcases List.mem_cons.1 hc with rfl | hc
              · exact hg
              · exact h1 c hc
            · cases l with
              | nil => exact absurd rfl hl
              | cons b l => exact (diesLast_cons a b l).2 ⟨hd, h2⟩
          · right
            refine ⟨a :: l1, c, l2, rfl, fun d hd' => ?_, fun d hd' => ?_, h3⟩
            · rcases List.mem_cons.1 hd' with rfl | hd'
              · exact hg
              · exact h1 d hd'
            · rcases List.mem_cons.1 hd' with rfl | hd'
              · exact hd
              · exact h2 d hd'
    · right; exact ⟨[], a, l, rfl, by simp, (by intro c hc; cases hc), Or.inl hb⟩

/-! ### C105 -/

/-- **C105**, for the routes that can be read: every text of such a route is read as the route. -/
theorem c105_route_partial (net : Str) (l : List (Extra × PObj ℚ)) (hn : Quoted net) (hw : ∀ a ∈ l, WfObj a.1 a.2)
    (hg : ∀ a ∈ l, ¬ BadObj a.2) (hd : DiesLast l) (b : Bool) (s r : Str) (hs : Writes b (routeToks net l) s) (hr : Ends b (routeToks net l) r) :
    route (s ++ r) = some ((net, l.map Prod.snd), r) :=
  reads_route net l hn (fun a ha => (wf_obj a.1 a.2 (hw a ha)).resolve_right (hg a ha)) hd b s r hs hr trivial

/-- **C105, refuted**: a text of a route (without the sign `+`) is read if and only if the route has no diamond, no arc of three points, no shape
mirrored at the x axis, and no bond wire without names of dies before another object; no other route of the format is read. -/
theorem c105_exact_refuted (net : Str) (l : List (Extra × PObj ℚ)) (hn : Quoted net) (hw : ∀ a ∈ l, WfObj a.1 a.2)
    (b : Bool) (s r : Str) (hs : Writes b (routeToks net l) s) (hp : '+' ∉ s) (hr : Ends b (routeToks net l) r) :
    ((∀ a ∈ l, ¬ BadObj a.2) ∧ DiesLast l → route (s ++ r) = some ((net, l.map Prod.snd), r)) ∧
    (¬ ((∀ a ∈ l, ¬ BadObj a.2) ∧ DiesLast l) → route (s ++ r) = none) := by
  refine ⟨fun h => c105_route_partial net l hn hw h.1 h.2 b s r hs hr, fun h => ?_⟩
  rcases first_trouble l hw with ⟨h1, h2⟩ | ⟨l1, a, l2, rfl, h1, h2, h3⟩
  · exact absurd ⟨fun a ha hb => badObj_not a.1 a.2 hb (h1 a ha), h2⟩ h
  · obtain ⟨x, o⟩ := a
    rcases h3 with h3 | ⟨h3, h4⟩
    · exact fails_routeBad net l1 x o l2 hn h1 h2 h3 b s r hs hr
    · cases o with
      | bondwire a e i p q =>
        cases l2 with
        | nil => exact absurd rfl h4
        | cons c l2 => exact fails_routeWire net l1 x a e i p q c.1 c.2 l2 hn h1 h2 h3 b s r hs hp hr
      | _ => exact absurd h3 id

/-- Composites with arcs of three points, in template shapes, in the outline of the board, in paths: not read -/
theorem c105_arc3_refuted (l : List (Seg ℚ)) (hl : WfComp l) (e m : ℚ × ℚ) (h : Seg.arc 2 e m ∈ l) (b : Bool) (s r : Str)
    (hs : Writes b (compToks l) s) (hr : Ends b (compToks l) r) : composite (s ++ r) = none := by
  rcases wf_comp l hl with hg | hb
  · exfalso
    match l, hl, hg, h with
    | .pt p :: l, _, hg, h =>
      rcases List.mem_cons.1 h with h | h
      · cases h
      · rcases hg _ h with h | h <;> revert h <;> decide
  · exact fails_badComp l hb b s r hs hr

/-! ### examples -/

/-- the hypotheses of the theorems on a route with a path and a via; its text is read -/
example : Writes true (routeToks "n".toList [(⟨none, true⟩, .via 1 2 "V".toList (0, 5) 0 'N')])
      "\"n\" { # route\n VIA 1 2 V 0 .5e1 0 N }".toList ∧
    WfObj ⟨none, true⟩ (.via 1 2 "V".toList (0, 5) 0 'N') ∧ Ends true (routeToks "n".toList [(⟨none, true⟩, .via 1 2 "V".toList (0, 5) 0 'N')]) ['\n'] := by
  have hq : ∀ d : Char, d.isDigit = true → ∀ q : ℚ, q = (Nat.ofDigitChars 10 [d] 0 : Nat) → NumText [d] q := by
    intro d hd q hq
    refine ⟨[], 1, [d], [], [], [], 0, .none, by simpa using hd, .none, by simp, .none, rfl, ?_⟩
    have h0 : Nat.ofDigitChars 10 ([] : List Char) 0 = 0 := rfl
    rw [hq, h0]; norm_num
  have hi : ∀ d : Char, d.isDigit = true → ∀ v : Int, v = (Nat.ofDigitChars 10 [d] 0 : Nat) → v < 10 → IntText [d] v := by
    intro d hd v hv h10
    refine ⟨[], 1, [d], .none, ⟨by simp, by simpa using hd⟩, rfl, by simpa using hv, by omega, by omega⟩
  have sol : ∀ c u, (isSpace c || c == '#') = false → Solid (c :: u) := fun c u h => by
    simp only [Bool.or_eq_false_iff, beq_eq_false_iff_ne] at h
    exact ⟨c, u, rfl, fun hb => by rw [(isSpace_iff c).2 hb] at h; exact absurd h.1 (by simp), h.2⟩
  have g1 : Gap [' '] := .blank ' ' [] (by simp [Blank]) .nil
  have g2 : Gap " # route\n ".toList := .blank ' ' _ (by simp [Blank]) (.comment " route".toList '\n' [' '] (by decide) (Or.inl rfl) g1)
  refine ⟨?_, ⟨⟨by decide, by decide⟩, by simp⟩, Or.inr (Or.inr ⟨'\n', [], rfl, Or.inl (by simp [Blank])⟩)⟩
  refine .tok true _ _ [] "\"n\"".toList _ .nil (by simp) rfl (sol _ _ rfl) ?_
  refine .tok false _ _ [' '] ['{'] _ g1 (by simp) rfl (sol _ _ rfl) ?_
  refine .tok false _ _ " # route\n ".toList "VIA".toList _ g2 (by decide) (by show _ = _; decide) (sol _ _ rfl) ?_
  refine .tok false _ _ [' '] ['1'] _ g1 (by simp) (hi '1' rfl _ rfl (by decide)) (sol _ _ rfl) ?_
  refine .tok false _ _ [' '] ['2'] _ g1 (by simp) (hi '2' rfl _ rfl (by decide)) (sol _ _ rfl) ?_
  refine .tok false _ _ [' '] ['V'] _ g1 (by simp) rfl (sol _ _ rfl) ?_
  refine .tok false _ _ [' '] ['0'] _ g1 (by simp) (hq '0' rfl _ rfl) (sol _ _ rfl) ?_
  refine .tok false _ _ [' '] ".5e1".toList _ g1 (by simp) ?_ (sol _ _ rfl) ?_
  · refine ⟨[], 1, [], ".5".toList, ['5'], "e1".toList, 1 * (1 : Nat), .none, by simp, .some ['5'] (by decide), by simp,
      .some 'e' [] 1 ['1'] (Or.inl rfl) .none ⟨by simp, by decide⟩, rfl, ?_⟩
    have h0 : Nat.ofDigitChars 10 ([] : List Char) 0 = 0 := rfl
    have h5 : Nat.ofDigitChars 10 ['5'] 0 = 5 := rfl
    rw [h0, h5]; norm_num
  refine .tok false _ _ [' '] ['0'] _ g1 (by simp) (hq '0' rfl _ rfl) (sol _ _ rfl) ?_
  refine .tok false _ _ [' '] ['N'] _ g1 (by simp) rfl (sol _ _ rfl) ?_
  exact .tok false _ _ [' '] ['}'] [] g1 (by simp) rfl (sol _ _ rfl) (.nil false)

example : route "\"n\" { # route\n VIA 1 2 V 0 .5e1 0 N }\n".toList =
    some (("n".toList, [.via 1 2 "V".toList (0, 5) 0 'N']), ['\n']) := by decide +kernel

/-- routes that are not read: a diamond, an arc of three points, a shape mirrored at the x axis, a bond wire without dies before another object -/
example : route "\"n\" { diamond 1 2 0 0 }\n".toList = none := by decide +kernel
example : route "\"n\" { path 1 0.1 { 0 0 ARC3 1 0 0.5 1 } }\n".toList = none := by decide +kernel
example : route "\"n\" { shape 1 1 0 0 90 X }\n".toList = none := by decide +kernel
example : route "\"n\" { bondwire 1 2 3 0 0 1 1 circle 1 2 0 0 }\n".toList = none := by decide +kernel
/-- with `+` the bond wire is read -/
example : route "\"n\" { bondwire 1 2 3 0 0 1 1 circle +1 2 0 0 }\n".toList =
    some (("n".toList, [.bondwire 1 2 3 (0, 0) (1, 1), .circle false 1 2 (0, 0)]), ['\n']) := by decide +kernel
example : ∃ a : Extra × PObj ℚ, WfObj a.1 a.2 ∧ BadObj a.2 := ⟨(⟨none, true⟩, .diamond false 1 2 (0, 0)), trivial, trivial⟩

end Ecad.XflP
