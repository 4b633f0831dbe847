import Verif.Xfl.ParserComb
/-!
The rules of the grammar for geometry and for the objects of routes.
-/
namespace Ecad.XflP
open Ecad.Xfl

/-! ### alternatives -/

theorem Reads.alt {α : Type} {F : Str → Prop} {p : P α} {ts : List Tok} {a : α} (ps qs : List (P α)) (hp : ∀ q ∈ ps, Fails q ts)
    (h : Reads F p ts a) : Reads F (alts (ps ++ p :: qs)) ts a := by
  induction ps with
  | nil => exact h.orL
  | cons q ps ih => exact Reads.orR (hp q (by simp)) (ih (fun x hx => hp x (List.mem_cons_of_mem _ hx)))

/-- the rule begins with another keyword -/
theorem failsW {α : Type} {k w : String} (h : differ Char.toLower k.toList w.toList = true) (f : Unit → P α) (ts : List Tok) (ht : Sp ts) :
    Fails (kw k >>= f) (W w :: ts) := ((fails_kw h).app ts ht).bind f

/-- neither the shape nor the void -/
theorem failsSV {α : Type} {k k' w : String} (h : differ Char.toLower k.toList w.toList = true) (h' : differ Char.toLower k'.toList w.toList = true)
    (f : Bool → P α) (ts : List Tok) (ht : Sp ts) : Fails (solidOrVoid k k' >>= f) (W w :: ts) :=
  ((failsW h _ ts ht).or (failsW h' _ ts ht)).bind f

theorem reads_solid (w : String) (v : Bool) (h : differ Char.toLower w.toList ("void_" ++ w).toList = true) :
    Reads Any (solidOrVoid w ("void_" ++ w)) [solidWord v w] v := by
  cases v with
  | false => exact ((reads_kw w).last (fun _ => rfl)).orL
  | true => exact Reads.orR ((fails_kw h).bind _) ((reads_kw _).last (fun _ => rfl))

/-! ### geometry -/

theorem reads_point (p : ℚ × ℚ) : Reads Any point (ptToks p) p :=
  (reads_num p.1).one ((reads_num p.2).last fun _ => rfl) trivial

/-- a point and what is read after it -/
theorem Reads.pt {β : Type} {F : Str → Prop} {f : ℚ × ℚ → P β} {p : ℚ × ℚ} {us : List Tok} {c : β} (hf : Reads F (f p) us c) (hu : Sp us) :
    Reads F (point >>= f) (N p.1 :: N p.2 :: us) c := (reads_point p).bind hf hu

theorem noNum_close (s : Str) : NoNum ('}' :: s) := by intro d hd; cases hd; rfl

theorem failsAt_point : FailsAt point NoNum := failsAt_num.bind _

theorem reads_polygon (l : List (ℚ × ℚ)) : Reads Any polygon (polyToks l) l := by
  refine (reads_lit ['{']).one ?_ (hd_flatMap l (fun x _ => Hd.tok _ _) (Hd.tok _ _)).sp
  have := Reads.star (F := Any) (G := Any) (p := point) (f := fun l => do lit ['}']; pure l) (val := id) (us := [closeB]) (c := l) l
    (fun p _ => ⟨reads_point p, first_any _⟩) (failsAt_point.fails (first_str '}' [] [] noNum_close)) (first_any _)
    (by rw [List.map_id]; exact (reads_lit ['}']).last fun _ => rfl)
  exact this

/-- arcs that are read -/
def GoodSeg : Seg ℚ → Prop
  | .pt _ => True
  | .arc t _ _ => t = 0 ∨ t = 1

/-- composites that are read: they begin with a point and have no arcs of three points -/
def GoodComp : List (Seg ℚ) → Prop
  | .pt _ :: l => ∀ x ∈ l, GoodSeg x
  | _ => False

theorem numStart_lower {d : Char} (hn : numStart d = true) : d.toLower = d := by
  simp only [numStart, Bool.or_eq_true, beq_iff_eq] at hn
  rcases hn with ((hn | rfl) | rfl) | rfl
  · unfold Char.toLower
    rw [dif_neg]
    simp only [Char.isDigit, Bool.and_eq_true, decide_eq_true_eq] at hn
    intro hh
    have h3 := hn.2
    have h4 : (65 : UInt32) ≤ d.val := hh.1
    have h5 := UInt32.le_trans h4 h3
    revert h5; decide
  · rfl
  · rfl
  · rfl

/-- a word is no number -/
theorem noNum_word {c d : Char} (h : d.toLower = c.toLower) (hc : numStart c.toLower = false) : numStart d = false := by
  cases hn : numStart d with
  | false => rfl
  | true => rw [numStart_lower hn] at h; rw [← h, hn] at hc; cases hc

theorem first_noNum (w : String) (c : Char) (w' : Str) (hw : w.toList = c :: w') (hc : numStart c.toLower = false) (ts : List Tok) :
    First NoNum (W w :: ts) := first_word w c w' hw ts (fun d hd _ e he => by cases he; exact noNum_word hd hc)

theorem reads_arc (t : Int) (e m : ℚ × ℚ) (ht : t = 0 ∨ t = 1) : Reads Any arc (segToks (.arc t e m)) (.arc t e m) := by
  have h : Reads Any (((do kw "ARC"; pure 0) : P Int).or (((do kw "RARC"; pure 1) : P Int).or (do kw "ARC3"; pure 2))) [W (arcWord t)] t := by
    rcases ht with rfl | rfl
    · exact ((reads_kw "ARC").last fun _ => rfl).orL
    · exact Reads.orR ((fails_kw (by decide)).bind _) ((reads_kw "RARC").last fun _ => rfl).orL
  exact h.one (Reads.pt ((reads_point m).last fun _ => rfl) trivial) trivial

theorem reads_seg (x : Seg ℚ) (hx : GoodSeg x) : Reads Any seg (segToks x) x := by
  cases x with
  | pt p => exact ((reads_point p).last fun _ => rfl).orL
  | arc t e m =>
    refine Reads.orR ?_ (reads_arc t e m hx)
    have : First NoNum (segToks (.arc t e m)) := by
      rcases hx with rfl | rfl
      · exact first_noNum "ARC" 'A' _ rfl rfl _
      · exact first_noNum "RARC" 'R' _ rfl rfl _
    exact (failsAt_point.bind _).fails this

theorem failsAt_seg_close : FailsAt seg (fun o => o.head? = some '}') := by
  refine FailsAt.or ((failsAt_point.bind _).mono fun c hc d hd => by rw [hc] at hd; cases hd; rfl) ?_
  refine FailsAt.bind (.or ?_ (.or ?_ ?_)) _ <;>
  · refine FailsAt.bind ((failsAt_kw _ rfl).mono fun c hc d hd => ?_) _
    rw [hc] at hd; cases hd; decide

theorem hd_seg (x : Seg ℚ) : Hd (segToks x) := by cases x <;> exact Hd.tok _ _

theorem reads_composite (l : List (Seg ℚ)) (hl : GoodComp l) : Reads Any composite (compToks l) l := by
  match l, hl with
  | .pt p :: l, hl =>
    have h1 := hd_flatMap (us := [closeB]) l (fun x _ => hd_seg x) (Hd.tok _ _)
    have := Reads.star (F := Any) (G := Any) (p := seg) (f := fun l => do lit ['}']; pure (Seg.pt p :: l)) (val := id) (us := [closeB])
      (c := .pt p :: l) l
      (fun x hx => ⟨reads_seg x (hl x hx), by obtain ⟨y, ys, e⟩ := hd_seg x; rw [e]; exact first_any _⟩)
      (failsAt_seg_close.fails (first_str '}' [] [] fun _ => rfl)) (first_any _)
      (by rw [List.map_id]; exact (reads_lit ['}']).last fun _ => rfl)
    exact (reads_lit ['{']).one (Reads.pt this h1.sp) trivial

/-! ### template shapes -/

/-- template shapes that are read as they are written -/
def GoodGeo : Geo ℚ → Prop
  | .composite l => GoodComp l
  | .diamond _ => False
  | _ => True

theorem failsKW {α : Type} {k w : String} (h : differ Char.toLower k.toList w.toList = true) (p : P α) (ts : List Tok) (ht : Sp ts) :
    Fails (kwThen k p) (W w :: ts) := failsW h _ ts ht

theorem reads_geo (g : Geo ℚ) (hg : GoodGeo g) : Reads Any (alts geoAlts) (geoToks g) g := by
  cases g with
  | polygon l => exact Reads.alt [] _ (by simp) ((reads_kw _).one ((reads_polygon l).last fun _ => rfl) trivial)
  | rectangle w h =>
    refine Reads.alt (geoAlts.take 1) _ ?_ ((reads_kw _).one ((reads_point (w, h)).last fun _ => rfl) trivial)
    intro q hq; simp only [geoAlts, List.take, List.mem_cons, List.not_mem_nil, or_false] at hq; subst hq; exact failsKW (by decide) _ _ trivial
  | square w =>
    refine Reads.alt (geoAlts.take 2) _ ?_ ((reads_kw _).one ((reads_num w).last fun _ => rfl) trivial)
    intro q hq; simp only [geoAlts, List.take, List.mem_cons, List.not_mem_nil, or_false] at hq
    rcases hq with rfl | rfl <;> exact failsKW (by decide) _ _ trivial
  | diamond w => exact absurd hg id
  | circle w =>
    refine Reads.alt (geoAlts.take 4) _ ?_ ((reads_kw _).one ((reads_num w).last fun _ => rfl) trivial)
    intro q hq; simp only [geoAlts, List.take, List.mem_cons, List.not_mem_nil, or_false] at hq
    rcases hq with rfl | rfl | rfl | rfl <;> exact failsKW (by decide) _ _ trivial
  | annular a b =>
    refine Reads.alt (geoAlts.take 5) _ ?_ ((reads_kw _).one ((reads_point (a, b)).last fun _ => rfl) trivial)
    intro q hq; simp only [geoAlts, List.take, List.mem_cons, List.not_mem_nil, or_false] at hq
    rcases hq with rfl | rfl | rfl | rfl | rfl <;> exact failsKW (by decide) _ _ trivial
  | oblong a b c =>
    refine Reads.alt (geoAlts.take 6) _ ?_ ((reads_kw _).one (Reads.last (a := (a, b, c))
      ((reads_num a).one ((reads_num b).one ((reads_num c).last fun _ => rfl) trivial) trivial) fun _ => rfl) trivial)
    intro q hq; simp only [geoAlts, List.take, List.mem_cons, List.not_mem_nil, or_false] at hq
    rcases hq with rfl | rfl | rfl | rfl | rfl | rfl <;> exact failsKW (by decide) _ _ trivial
  | bullet a b c =>
    refine Reads.alt (geoAlts.take 7) _ ?_ ((reads_kw _).one (Reads.last (a := (a, b, c))
      ((reads_num a).one ((reads_num b).one ((reads_num c).last fun _ => rfl) trivial) trivial) fun _ => rfl) trivial)
    intro q hq; simp only [geoAlts, List.take, List.mem_cons, List.not_mem_nil, or_false] at hq
    rcases hq with rfl | rfl | rfl | rfl | rfl | rfl | rfl <;> exact failsKW (by decide) _ _ trivial
  | finger a b c =>
    refine Reads.alt (geoAlts.take 8) _ ?_ ((reads_kw _).one (Reads.last (a := (a, b, c))
      ((reads_num a).one ((reads_num b).one ((reads_num c).last fun _ => rfl) trivial) trivial) fun _ => rfl) trivial)
    intro q hq; simp only [geoAlts, List.take, List.mem_cons, List.not_mem_nil, or_false] at hq
    rcases hq with rfl | rfl | rfl | rfl | rfl | rfl | rfl | rfl <;> exact failsKW (by decide) _ _ trivial
  | composite l =>
    refine Reads.alt (geoAlts.take 9) _ ?_ ((reads_kw _).one ((reads_composite l hg).last fun _ => rfl) trivial)
    intro q hq; simp only [geoAlts, List.take, List.mem_cons, List.not_mem_nil, or_false] at hq
    rcases hq with rfl | rfl | rfl | rfl | rfl | rfl | rfl | rfl | rfl <;> exact failsKW (by decide) _ _ trivial

theorem hd_geo (g : Geo ℚ) : Hd (geoToks g) := by cases g <;> exact Hd.tok _ _

theorem reads_shape (s : Int × Geo ℚ) (h : GoodGeo s.2) : Reads Any shape (shapeToks s) s :=
  (reads_int s.1).one ((reads_geo s.2 h).last fun _ => rfl) (hd_geo s.2).sp

/-- the diamond is read as a square -/
theorem reads_diamond (w : ℚ) : Reads Any (alts geoAlts) (geoToks (.diamond w)) (.square w) := by
  refine Reads.alt (geoAlts.take 3) _ ?_ ((reads_kw _).one ((reads_num w).last fun _ => rfl) trivial)
  intro q hq; simp only [geoAlts, List.take, List.mem_cons, List.not_mem_nil, or_false] at hq
  rcases hq with rfl | rfl | rfl <;> exact failsKW (by decide) _ _ trivial

end Ecad.XflP
