import Verif.Thermal.ProfileProps
/-!
C117, continued: the files.
-/
namespace Ecad.Profile
open Ctm (Bytes digs isSpace digitsVal)
open Dmc (joinSp eol Words IsInt IsDec IsWord Signed dtext dval Nearest)

/-! ## words of a line -/

theorem words_head {l t : Bytes} {ts : List Bytes} (h : Words l (t :: ts)) : ∃ r, l.dropWhile isSpace = t ++ r ∧
    (l.dropWhile isSpace).takeWhile (fun c => !isSpace c) = t ∧ Words r ts := by
  cases h with
  | cons hb hne ht hr h =>
    rename_i b r
    have e : (b ++ (t ++ r)).dropWhile isSpace = t ++ r := by
      rw [List.dropWhile_append_of_pos hb]
      obtain ⟨c, t', rfl⟩ := List.exists_cons_of_ne_nil hne
      rw [List.cons_append, List.dropWhile_cons_of_neg (by simp [ht c (by simp)])]
    refine ⟨r, e, ?_, h⟩
    rw [e, List.takeWhile_append_of_pos (by simpa using ht)]
    cases r with
    | nil => simp
    | cons c r => rw [List.takeWhile_cons_of_neg (by simp [hr c rfl]), List.append_nil]

/-- a line has its words only -/
theorem words_det {l : Bytes} {ts us : List Bytes} (h : Words l ts) (h' : Words l us) : ts = us := by
  induction ts generalizing l us with
  | nil =>
    cases us with
    | nil => rfl
    | cons u us =>
      exfalso
      obtain ⟨r, h1, _, _⟩ := words_head h'
      cases h with
      | nil hb =>
        have e : l.dropWhile isSpace = [] := by
          have := List.dropWhile_append_of_pos (l₂ := []) hb
          rwa [List.append_nil, List.dropWhile_nil] at this
        rw [e] at h1
        cases h' with
        | cons _ hne _ _ _ => exact hne (List.append_eq_nil_iff.1 h1.symm).1
  | cons t ts ih =>
    obtain ⟨r, h1, h2, h3⟩ := words_head h
    cases us with
    | nil =>
      exfalso
      cases h' with
      | nil hb =>
        have e : l.dropWhile isSpace = [] := by
          have := List.dropWhile_append_of_pos (l₂ := []) hb
          rwa [List.append_nil, List.dropWhile_nil] at this
        rw [e] at h1
        cases h with
        | cons _ hne _ _ _ => exact hne (List.append_eq_nil_iff.1 h1.symm).1
    | cons u us =>
      obtain ⟨r', g1, g2, g3⟩ := words_head h'
      have e : t = u := by rw [← h2, g2]
      subst e
      have e' : r = r' := List.append_cancel_left (h1.symm.trans g1)
      subst e'
      rw [ih h3 g3]

/-- each is one word, maybe with blanks around it -/
theorem join_words {ws ts : List Bytes} (h : List.Forall₂ (fun w t => Words w [t]) ws ts) : Words (joinSp ws) ts := by
  have h' : List.Forall₂ Words ws (ts.map fun t => [t]) := by
    induction h with
    | nil => exact .nil
    | cons h _ ih => exact .cons h ih
  have := Dmc.words_join h'
  have e : (ts.map fun t => [t]).flatten = ts := by
    clear h h' this
    induction ts with
    | nil => rfl
    | cons t ts ih => rw [List.map_cons, List.flatten_cons, ih]; rfl
  rwa [e] at this

theorem join_self {ws : List Bytes} (h : ∀ w ∈ ws, IsWord w) : Words (joinSp ws) ws := by
  refine join_words ?_
  induction ws with
  | nil => exact .nil
  | cons w ws ih => exact .cons (Dmc.words_word (h w (by simp))) (ih fun x hx => h x (by simp [hx]))

theorem join_lf {ws : List Bytes} (h : ∀ w ∈ ws, 10 ∉ w) : 10 ∉ joinSp ws := by
  induction ws with
  | nil => simp [joinSp]
  | cons w ws ih =>
    cases ws with
    | nil => rw [joinSp]; exact h w (by simp)
    | cons v ws =>
      rw [joinSp]
      · intro hm
        rcases List.mem_append.1 hm with hm | hm
        · exact h w (by simp) hm
        · rcases List.mem_cons.1 hm with hm | hm
          · cases hm
          · exact ih (fun x hx => h x (by simp [hx])) hm
      · intro h; cases h

theorem isInt_digs (n : Nat) : IsInt (digs n) n := by
  obtain ⟨a, h0, h1, h2, h3⟩ := Dmc.digs_text n
  exact ⟨[], 1, a, .inl ⟨rfl, rfl⟩, h0, h1, by rw [h2]; rfl, by rw [h3]; simp⟩

variable {rnd : ℚ → Int}

theorem words_f12 (x : ℚ) : Words (f12 rnd x) [fixed rnd 9 x] := by
  unfold f12 padL
  refine Dmc.words_blank (fun c hc => ?_) (Dmc.words_word (word_fixed 9 x))
  rw [(List.mem_replicate.1 hc).2]
  rfl

theorem lf_word {t : Bytes} (h : IsWord t) : 10 ∉ t := fun hm => by
  have := h.2 10 hm
  revert this
  decide

theorem lf_f12 (x : ℚ) : 10 ∉ f12 rnd x := by
  unfold f12 padL
  intro hm
  rcases List.mem_append.1 hm with hm | hm
  · have := (List.mem_replicate.1 hm).2
    omega
  · exact lf_word (word_fixed 9 x) hm

/-! ## the tiles -/

theorem cells_succ (w h : Nat) : cells (w + 1) h = cells w h ++ (List.range h).map fun j => (w, j) := by
  unfold cells
  rw [List.range_succ, List.flatMap_append]
  simp

theorem cells_length (w h : Nat) : (cells w h).length = w * h := by
  induction w with
  | zero => simp [cells]
  | succ w ih => rw [cells_succ, List.length_append, ih, List.length_map, List.length_range]; ring

theorem cells_get {w h i j : Nat} (hi : i < w) (hj : j < h) : (cells w h)[i * h + j]? = some (i, j) := by
  induction w with
  | zero => omega
  | succ w ih =>
    rw [cells_succ]
    by_cases hiw : i < w
    · have hlt : i * h + j < (cells w h).length := by
        rw [cells_length]
        calc i * h + j < i * h + h := by omega
          _ = (i + 1) * h := by ring
          _ ≤ w * h := Nat.mul_le_mul_right _ hiw
      rw [List.getElem?_append_left hlt, ih hiw]
    · have e : i = w := by omega
      subst e
      rw [List.getElem?_append_right (by rw [cells_length]; omega), cells_length, Nat.add_sub_cancel_left, List.getElem?_map, List.getElem?_range hj]
      rfl

/-! ## the file of results -/

/-- the line of a layer: name, if it is metal, elevation and thickness -/
def LayerSays (scale : ℚ) (l : Bytes) (L : LInfo) : Prop :=
  ∃ k a b, Words l [asc "LAYER", L.name, k, a, b] ∧ IsInt k (if L.metal then 1 else 0) ∧ SaysFixed 9 a (L.elev * scale) ∧ SaysFixed 9 b (L.thick * scale)

/-- the line of a box -/
def BoxSays (key : Bytes) (scale : ℚ) (l : Bytes) (b : Box) : Prop :=
  ∃ p q r s, Words l [key, p, q, r, s] ∧ SaysFixed 9 p ((b.lx : ℚ) * scale) ∧ SaysFixed 9 q ((b.ly : ℚ) * scale) ∧
    SaysFixed 9 r ((b.ux : ℚ) * scale) ∧ SaysFixed 9 s ((b.uy : ℚ) * scale)

/-- the file, as described at src/utility/EMetalFractionMapping.cpp:183-190 -/
def ResultFile (scale : ℚ) (a : Info) (mf : List Frac) (ls : List Bytes) : Prop :=
  ∃ hd lays o e t r tiles, ls = hd :: [] :: (lays ++ ([] :: o :: e :: t :: r :: [] :: tiles)) ∧
    (∃ n, Words hd [asc "LAYERS", n] ∧ IsInt n a.layers.length) ∧
    List.Forall₂ (LayerSays scale) lays a.layers ∧
    BoxSays (asc "ORIGIN") scale o a.origin ∧ BoxSays (asc "EXTENSION") scale e a.ext ∧
    (∃ w h, Words t [asc "TILE", w, h] ∧ IsInt w a.grid.1 ∧ IsInt h a.grid.2) ∧
    (∃ x y, Words r [asc "RESOLUTION", x, y] ∧ SaysFixed 9 x ((a.stride.1 : ℚ) * scale) ∧ SaysFixed 9 y ((a.stride.2 : ℚ) * scale)) ∧
    tiles.length = a.grid.1 * a.grid.2 ∧
    ∀ i j, i < a.grid.1 → j < a.grid.2 → ∃ l x y fs, tiles[i * a.grid.2 + j]? = some l ∧ Words l (x :: y :: fs) ∧ IsInt x i ∧ IsInt y j ∧
      List.Forall₂ (fun t f => SaysFixed 6 t (f i j)) fs mf

theorem digs_small {n : Nat} (h : n < 10) : (digs n).length = 1 := by
  rw [digs, dif_pos h]
  rfl

theorem digs_big {n : Nat} (h : 10 ≤ n) : 2 ≤ (digs n).length := by
  rw [digs, dif_neg (by omega), List.length_append]
  have := List.length_pos_of_ne_nil (Ctm.digs_ne (n / 10))
  simp only [List.length_singleton]
  omega

theorem digN_length (d n : Nat) : (digN d n).length = d := by
  obtain ⟨a, h1, _, h3, _⟩ := digN_text d n
  rw [h3, dtext, List.length_map, h1]

theorem fix_short {k : Int} (h0 : 0 ≤ k) (h : k < 10000000000) : (fixText 9 k).length = 11 := by
  unfold fixText
  rw [if_neg (by omega), List.nil_append, List.length_append, digs_small (by norm_num; omega), List.length_cons, digN_length]

theorem fix_long {k : Int} (h : 10000000000 ≤ k) : 12 ≤ (fixText 9 k).length := by
  unfold fixText
  have := digs_big (n := k.natAbs / 10 ^ 9) (by norm_num; omega)
  rw [if_neg (by omega), List.nil_append, List.length_append, List.length_cons, digN_length]
  omega

theorem res_words (scale : ℚ) (s : Int × Int) :
    Words (resLine rnd scale s) (if (fixed rnd 9 ((s.1 : ℚ) * scale)).length < 12 then
      [asc "RESOLUTION", fixed rnd 9 ((s.1 : ℚ) * scale), fixed rnd 9 ((s.2 : ℚ) * scale)]
      else [asc "RESOLUTION" ++ fixed rnd 9 ((s.1 : ℚ) * scale), fixed rnd 9 ((s.2 : ℚ) * scale)]) := by
  have hR : IsWord (asc "RESOLUTION") := by
    unfold IsWord
    decide +kernel
  set p := fixed rnd 9 ((s.1 : ℚ) * scale) with hp
  have hw : IsWord p := word_fixed 9 _
  have h2 := words_f12 (rnd := rnd) ((s.2 : ℚ) * scale)
  have e : resLine rnd scale s = asc "RESOLUTION" ++ (padL 12 p ++ 32 :: f12 rnd ((s.2 : ℚ) * scale)) := by
    unfold resLine
    rw [joinSp]
    · rw [joinSp, f12, ← hp]
    · intro h; cases h
  rw [e]
  unfold padL
  split
  · rename_i hlt
    obtain ⟨m, hm⟩ : ∃ m, 12 - p.length = m + 1 := ⟨12 - p.length - 1, by omega⟩
    rw [hm, List.replicate_succ, List.cons_append, List.cons_append]
    refine Dmc.words_append (Dmc.words_word hR) ?_
    rw [List.append_assoc]
    refine Dmc.words_blank (fun c hc => by rw [(List.mem_replicate.1 hc).2]; rfl) ?_
    exact Dmc.words_append (Dmc.words_word hw) h2
  · rename_i hge
    rw [show 12 - p.length = 0 by omega, List.replicate_zero, List.nil_append, ← List.append_assoc]
    refine Dmc.words_append (Dmc.words_word ⟨by simp [hR.1], fun c hc => ?_⟩) h2
    rcases List.mem_append.1 hc with hc | hc
    · exact hR.2 c hc
    · exact hw.2 c hc

theorem says_box (hr : Nearest rnd) {key : Bytes} (hk : IsWord key) (scale : ℚ) (b : Box) : BoxSays key scale (boxLine rnd key scale b) b := by
  refine ⟨_, _, _, _, join_words ?_, says_fixed hr 9 _, says_fixed hr 9 _, says_fixed hr 9 _, says_fixed hr 9 _⟩
  exact .cons (Dmc.words_word hk) (.cons (words_f12 _) (.cons (words_f12 _) (.cons (words_f12 _) (.cons (words_f12 _) .nil))))

theorem says_layer (hr : Nearest rnd) (scale : ℚ) {L : LInfo} (hL : IsWord L.name) : LayerSays scale (layerLine rnd scale L) L := by
  refine ⟨_, _, _, join_words (.cons (Dmc.words_word ?_) (.cons (Dmc.words_word hL) (.cons (Dmc.words_word (Dmc.isWord_digs _))
    (.cons (words_f12 _) (.cons (words_f12 _) .nil))))), ?_, says_fixed hr 9 _, says_fixed hr 9 _⟩
  · unfold IsWord
    decide +kernel
  · cases L.metal
    · exact isInt_digs 0
    · exact isInt_digs 1

theorem tile_words (hr : Nearest rnd) (mf : List Frac) (c : Nat × Nat) : ∃ fs, Words (tileLine rnd mf c) (digs c.1 :: digs c.2 :: fs) ∧
    List.Forall₂ (fun t f => SaysFixed 6 t (f c.1 c.2)) fs mf := by
  have hws : Words (tileLine rnd mf c) (digs c.1 :: digs c.2 :: mf.map fun f => fixed rnd 6 (f c.1 c.2)) := by
    refine join_self ?_
    intro w hw
    rcases List.mem_cons.1 hw with rfl | hw
    · exact Dmc.isWord_digs _
    · rcases List.mem_cons.1 hw with rfl | hw
      · exact Dmc.isWord_digs _
      · obtain ⟨f, _, rfl⟩ := List.mem_map.1 hw
        exact word_fixed 6 _
  refine ⟨_, hws, ?_⟩
  clear hws
  induction mf with
  | nil => exact .nil
  | cons f mf ih => exact .cons (says_fixed hr 6 _) ih

/-- C117: the file of the results says what the mapper found, if the names of the layers are words and the resolution is less than ten units.

Missing from the full claim (the file of every result does): names that are empty or have blanks, greater resolutions; see the theorems below. -/
theorem c117_result_partial (hr : Nearest rnd) (scale : ℚ) (a : Info) (mf : List Frac) (hn : ∀ L ∈ a.layers, IsWord L.name)
    (hs : (a.stride.1 : ℚ) * scale < 10 - 1 / 1000000000 ∧ 0 ≤ (a.stride.1 : ℚ) * scale) :
    ∃ ls, writeResult rnd scale (some a) mf true = (some (eol ls), true) ∧ (∀ l ∈ ls, 10 ∉ l) ∧ ResultFile scale a mf ls := by
  have key : ∀ s ∈ ["LAYERS", "LAYER", "ORIGIN", "EXTENSION", "TILE", "RESOLUTION"], IsWord (asc s) := by
    unfold IsWord
    decide +kernel
  have hshort : (fixed rnd 9 ((a.stride.1 : ℚ) * scale)).length < 12 := by
    have h := abs_le.1 (hr ((a.stride.1 : ℚ) * scale * 10 ^ 9))
    generalize hk : rnd ((a.stride.1 : ℚ) * scale * 10 ^ 9) = kk at h
    norm_num at h
    have h1 : (-1 : ℚ) < (kk : ℚ) := by linarith [h.1, hs.2]
    have h2 : (kk : ℚ) < 10000000000 := by linarith [h.2, hs.1]
    have h1' : (-1 : Int) < kk := by exact_mod_cast h1
    have h2' : kk < 10000000000 := by exact_mod_cast h2
    unfold fixed
    rw [hk]
    rw [fix_short (by omega) h2']
    norm_num
  refine ⟨resultLines rnd scale a mf, rfl, ?_, ?_⟩
  · intro l hl
    have hbox : ∀ k b, IsWord k → 10 ∉ boxLine rnd k scale b := by
      intro k b hk
      refine join_lf fun w hw => ?_
      simp only [List.mem_cons, List.not_mem_nil, or_false] at hw
      rcases hw with rfl | rfl | rfl | rfl | rfl
      · exact lf_word hk
      all_goals exact lf_f12 _
    have hwords : ∀ ws : List Bytes, (∀ w ∈ ws, IsWord w) → 10 ∉ joinSp ws := fun ws h => join_lf fun w hw => lf_word (h w hw)
    unfold resultLines at hl
    simp only [List.mem_cons, List.mem_append, List.mem_map] at hl
    rcases hl with rfl | rfl | ⟨L, hL, rfl⟩ | rfl | rfl | rfl | rfl | rfl | rfl | ⟨c, _, rfl⟩
    · refine hwords _ fun w hw => ?_
      simp only [List.mem_cons, List.not_mem_nil, or_false] at hw
      rcases hw with rfl | rfl
      exacts [key _ (by simp), Dmc.isWord_digs _]
    · simp
    · refine join_lf fun w hw => ?_
      simp only [List.mem_cons, List.not_mem_nil, or_false] at hw
      rcases hw with rfl | rfl | rfl | rfl | rfl
      exacts [lf_word (key _ (by simp)), lf_word (hn L hL), lf_word (Dmc.isWord_digs _), lf_f12 _, lf_f12 _]
    · simp
    · exact hbox _ _ (key _ (by simp))
    · exact hbox _ _ (key _ (by simp))
    · refine hwords _ fun w hw => ?_
      simp only [List.mem_cons, List.not_mem_nil, or_false] at hw
      rcases hw with rfl | rfl | rfl
      exacts [key _ (by simp), Dmc.isWord_digs _, Dmc.isWord_digs _]
    · unfold resLine
      intro hm
      rcases List.mem_append.1 hm with hm | hm
      · exact lf_word (key _ (by simp)) hm
      · refine join_lf (fun w hw => ?_) hm
        simp only [List.mem_cons, List.not_mem_nil, or_false] at hw
        rcases hw with rfl | rfl
        all_goals exact lf_f12 _
    · simp
    · refine hwords _ fun w hw => ?_
      simp only [List.mem_append, List.mem_cons, List.not_mem_nil, or_false, List.mem_map] at hw
      rcases hw with (rfl | rfl) | ⟨f, _, rfl⟩
      exacts [Dmc.isWord_digs _, Dmc.isWord_digs _, word_fixed 6 _]
  · refine ⟨_, _, _, _, _, _, _, rfl, ⟨_, join_self ?_, isInt_digs _⟩, ?_, says_box hr (key _ (by simp)) scale _, says_box hr (key _ (by simp)) scale _,
      ⟨_, _, join_self ?_, isInt_digs _, isInt_digs _⟩, ⟨_, _, ?_, says_fixed hr 9 _, says_fixed hr 9 _⟩, ?_, ?_⟩
    · intro w hw
      simp only [List.mem_cons, List.not_mem_nil, or_false] at hw
      rcases hw with rfl | rfl
      exacts [key _ (by simp), Dmc.isWord_digs _]
    · have := hn
      generalize a.layers = Ls at this
      induction Ls with
      | nil => exact .nil
      | cons L Ls ih => exact .cons (says_layer hr scale (this L (by simp))) (ih fun x hx => this x (by simp [hx]))
    · intro w hw
      simp only [List.mem_cons, List.not_mem_nil, or_false] at hw
      rcases hw with rfl | rfl | rfl
      exacts [key _ (by simp), Dmc.isWord_digs _, Dmc.isWord_digs _]
    · have := res_words (rnd := rnd) scale a.stride
      rwa [if_pos hshort] at this
    · rw [List.length_map, cells_length]
    · intro i j hi hj
      obtain ⟨fs, h1, h2⟩ := tile_words hr mf (i, j)
      refine ⟨tileLine rnd mf (i, j), _, _, fs, ?_, h1, isInt_digs _, isInt_digs _, h2⟩
      rw [List.getElem?_map, cells_get hi hj]
      rfl

/-- nothing is written before the mapping or if the file cannot be opened -/
theorem c117_result_none (scale : ℚ) (info : Option Info) (mf : List Frac) (opened : Bool) (h : info = none ∨ opened = false) :
    writeResult rnd scale info mf opened = (none, false) := by
  unfold writeResult
  rcases h with rfl | rfl
  · rfl
  · cases info <;> rfl

/-- C117 does not hold for all resolutions: the word stands before the number exactly if the number rounds to less than ten units; otherwise there
is one word less in the line. -/
theorem c117_resolution_refuted (scale : ℚ) (s : Int × Int) (h0 : 0 ≤ rnd ((s.1 : ℚ) * scale * 10 ^ 9)) :
    ((∃ ts, Words (resLine rnd scale s) (asc "RESOLUTION" :: ts)) ↔ rnd ((s.1 : ℚ) * scale * 10 ^ 9) < 10000000000) ∧
    (10000000000 ≤ rnd ((s.1 : ℚ) * scale * 10 ^ 9) → ∀ ts, Words (resLine rnd scale s) ts → ts.length = 2) := by
  have hw := res_words (rnd := rnd) scale s
  have long : ¬ rnd ((s.1 : ℚ) * scale * 10 ^ 9) < 10000000000 → ¬ (fixed rnd 9 ((s.1 : ℚ) * scale)).length < 12 := by
    intro h
    have := fix_long (k := rnd ((s.1 : ℚ) * scale * 10 ^ 9)) (by omega)
    unfold fixed
    omega
  refine ⟨⟨?_, ?_⟩, ?_⟩
  · rintro ⟨ts, ht⟩
    by_contra hc
    rw [if_neg (long hc)] at hw
    have e := words_det ht hw
    have e1 := (List.cons.inj e).1
    have := congrArg List.length e1
    rw [List.length_append] at this
    have hp := List.length_pos_of_ne_nil (word_fixed (rnd := rnd) 9 ((s.1 : ℚ) * scale)).1
    omega
  · intro h
    have hs : (fixed rnd 9 ((s.1 : ℚ) * scale)).length < 12 := by
      unfold fixed
      rw [fix_short h0 h]
      norm_num
    rw [if_pos hs] at hw
    exact ⟨_, hw⟩
  · intro h ts ht
    rw [if_neg (long (by omega))] at hw
    rw [words_det ht hw]
    rfl

/-- C117 does not hold for all names: the line has as many words for the name as the name has, so five in all only if that is one. -/
theorem c117_name_refuted (scale : ℚ) (L : LInfo) {nw : List Bytes} (h : Words L.name nw) (hk : nw.length ≠ 1) :
    (∀ ts, Words (layerLine rnd scale L) ts → ts.length = 4 + nw.length) ∧ ¬ LayerSays scale (layerLine rnd scale L) L := by
  have hw : Words (layerLine rnd scale L) ([asc "LAYER"] ++ (nw ++ ([digs (if L.metal then 1 else 0)] ++ ([fixed rnd 9 (L.elev * scale)] ++ ([fixed rnd 9 (L.thick * scale)] ++ []))))) := by
    refine Dmc.words_join (.cons (Dmc.words_word ?_) (.cons h (.cons (Dmc.words_word (Dmc.isWord_digs _)) (.cons (words_f12 _) (.cons (words_f12 _) .nil)))))
    unfold IsWord
    decide +kernel
  refine ⟨fun ts ht => ?_, ?_⟩
  · rw [words_det ht hw]
    simp only [List.length_append, List.length_singleton, List.length_nil]
    omega
  · rintro ⟨k, a, b, h', _⟩
    have := congrArg List.length (words_det h' hw)
    simp only [List.length_append, List.length_cons, List.length_nil] at this
    omega

/-- C117 does not hold for the lengths across the layers: elevations and thicknesses are already in the units into which `scale` brings the
coordinates (src/extraction/thermal/EThermalModelExtraction.cpp:67), but are multiplied by it as well.  The thickness in the file is not that of the layer if a
unit has at least two coordinates and the thickness can be seen in nine digits. -/
theorem c117_thick_refuted (hr : Nearest rnd) {scale : ℚ} (h0 : 0 ≤ scale) (h1 : scale ≤ 1 / 2) {L : LInfo} (ht : 3 / 1000000000 < L.thick) (hL : IsWord L.name) :
    ∃ k a b, ∃ q : ℚ, Words (layerLine rnd scale L) [asc "LAYER", L.name, k, a, b] ∧ IsDec b q ∧ 1 / 2 / 10 ^ 9 < |q - L.thick| := by
  obtain ⟨k, a, b, hw, _, _, m, h2, h3⟩ := says_layer hr scale hL
  refine ⟨k, a, b, _, hw, h2, ?_⟩
  have h := abs_le.1 h3
  have : L.thick * scale ≤ L.thick / 2 := by nlinarith
  rw [abs_of_neg (by norm_num at h ⊢; linarith [h.2])]
  norm_num at h ⊢
  linarith [h.2]

/-! ## the profiles -/

/-- the lines of the tiles: one for each tile, with the edges of its box and a number for each layer; neighbours have the same text for the edge
they share -/
def TilesSay (w h : Nat) (X Y : Nat → ℚ) (S : Bytes → ℚ → Prop) (mf : List Frac) (tiles : List Bytes) : Prop :=
  tiles.length = w * h ∧ ∃ xs ys : Nat → Bytes, (∀ i, SaysSig (xs i) (X i)) ∧ (∀ j, SaysSig (ys j) (Y j)) ∧
    ∀ i j, i < w → j < h → ∃ l d fs, tiles[i * h + j]? = some l ∧ Words l (d :: xs i :: ys j :: xs (i + 1) :: ys (j + 1) :: fs) ∧
      IsInt d ((i * h + j + 1 : Nat) : Int) ∧ List.Forall₂ (fun t f => S t (f i j)) fs mf

/-- the lines of the layers: how many, and their names where there are some -/
def NamesSay (ns : List Bytes) (l k : Bytes) : Prop :=
  ∃ n names, Words l ([asc "#", asc "LAYER", n] ++ names) ∧ Words k (tileKeys ++ names) ∧ IsInt n ns.length ∧ names.length = ns.length ∧
    ∀ (i : Nat) x, ns[i]? = some x → x ≠ [] → names[i]? = some x

/-- the line of the die -/
def DieSays (S : Bytes → ℚ → Prop) (x y x' y' : ℚ) (l : Bytes) : Prop :=
  ∃ p q r s, Words l [asc "#", asc "DIE", p, q, r, s] ∧ S p x ∧ S q y ∧ S r x' ∧ S s y'

/-- the line of the tiles -/
def GridSays (w h : Nat) (l : Bytes) : Prop := ∃ p q, Words l [asc "#", asc "TILE", p, q] ∧ IsInt p w ∧ IsInt q h

theorem keys : ∀ s ∈ ["#", "Version", "3.0", "DIE", "TILE", "LAYER", "TileID", "X1(um)", "Y1(um)", "X2(um)", "Y2(um)", "SCALE_FACTOR", "Unknown"], IsWord (asc s) := by
  unfold IsWord
  decide +kernel

theorem tileKeys_word : ∀ t ∈ tileKeys, IsWord t := by
  intro t ht
  simp only [tileKeys, List.mem_cons, List.not_mem_nil, or_false] at ht
  rcases ht with rfl | rfl | rfl | rfl | rfl | rfl <;> exact keys _ (by simp)

theorem names_say {ns names : List Bytes} (hw : ∀ n ∈ names, IsWord n) (hl : names.length = ns.length)
    (he : ∀ (i : Nat) x, ns[i]? = some x → x ≠ [] → names[i]? = some x) :
    NamesSay ns (joinSp ([asc "#", asc "LAYER", digs ns.length] ++ names)) (joinSp (tileKeys ++ names)) := by
  refine ⟨_, names, join_self ?_, join_self ?_, isInt_digs _, hl, he⟩
  · intro w h
    rcases List.mem_append.1 h with h | h
    · simp only [List.mem_cons, List.not_mem_nil, or_false] at h
      rcases h with rfl | rfl | rfl
      exacts [keys _ (by simp), keys _ (by simp), Dmc.isWord_digs _]
    · exact hw w h
  · intro w h
    rcases List.mem_append.1 h with h | h
    · exact tileKeys_word w h
    · exact hw w h

theorem tiles_say {w h : Nat} {X Y : Nat → ℚ} {S : Bytes → ℚ → Prop} {f : ℚ → Bytes} (hf : ∀ x, S (f x) x) (hfw : ∀ x, IsWord (f x)) (hr : Nearest rnd) (mf : List Frac) :
    TilesSay w h X Y S mf ((cells w h).zipIdx.map fun c =>
      joinSp ([digs (c.2 + 1), gText rnd (X c.1.1), gText rnd (Y c.1.2), gText rnd (X (c.1.1 + 1)), gText rnd (Y (c.1.2 + 1))] ++ mf.map fun g => f (g c.1.1 c.1.2))) := by
  refine ⟨by rw [List.length_map, List.length_zipIdx, cells_length], fun i => gText rnd (X i), fun j => gText rnd (Y j), fun i => says_sig hr _, fun j => says_sig hr _, ?_⟩
  intro i j hi hj
  refine ⟨_, digs (i * h + j + 1), mf.map fun g => f (g i j), ?_, join_self ?_, isInt_digs _, ?_⟩
  · rw [List.getElem?_map, List.getElem?_zipIdx, cells_get hi hj]
    simp only [Option.map_some, Nat.zero_add]
    rfl
  · intro w hw
    simp only [List.mem_cons, List.mem_map] at hw
    rcases hw with rfl | rfl | rfl | rfl | rfl | ⟨g, _, rfl⟩
    exacts [Dmc.isWord_digs _, word_sig hr _, word_sig hr _, word_sig hr _, word_sig hr _, hfw _]
  · induction mf with
    | nil => exact .nil
    | cons g mf ih => exact .cons (hf _) ih

theorem profName_word (i : Nat) {n : Bytes} (h : n = [] ∨ IsWord n) : IsWord (profName i n) := by
  unfold profName
  by_cases hn : n = []
  · rw [if_pos hn]
    refine ⟨by simp [(keys "LAYER" (by simp)).1], fun c hc => ?_⟩
    rcases List.mem_append.1 hc with hc | hc
    · exact (keys "LAYER" (by simp)).2 c hc
    · exact (Dmc.isWord_digs i).2 c hc
  · rw [if_neg hn]
    rcases h with h | h
    · exact absurd h hn
    · exact h

/-- C117: the profile of the mapper says the die, the layers and the tiles, if the names of the layers have no blanks.

Missing from the full claim: names with blanks; boxes and fractions have six digits only, see `c117_flat_refuted`. -/
theorem c117_profile_partial (hr : Nearest rnd) (a : Info) (mf : List Frac) (hm : a.layers.length = mf.length) (hn : ∀ L ∈ a.layers, L.name = [] ∨ IsWord L.name) :
    ∃ v d t l k tiles, writeProfile rnd a mf true true = (some (eol (v :: d :: t :: l :: k :: tiles)), true) ∧
      Words v [asc "#", asc "Version", asc "3.0"] ∧
      DieSays SaysSig (um a.units a.ext.lx) (um a.units a.ext.ly) (um a.units a.ext.ux) (um a.units a.ext.uy) d ∧
      GridSays a.grid.1 a.grid.2 t ∧ NamesSay (a.layers.map LInfo.name) l k ∧
      TilesSay a.grid.1 a.grid.2 (fun i => um a.units (a.ext.lx + a.stride.1 * i)) (fun j => um a.units (a.ext.ly + a.stride.2 * j)) SaysSig mf tiles := by
  refine ⟨_, _, _, _, _, _, by unfold writeProfile; rw [if_pos hm]; rfl, join_self ?_, ⟨_, _, _, _, join_self ?_, says_sig hr _, says_sig hr _, says_sig hr _, says_sig hr _⟩,
    ⟨_, _, join_self ?_, isInt_digs _, isInt_digs _⟩, ?_, ?_⟩
  · intro w hw
    simp only [List.mem_cons, List.not_mem_nil, or_false] at hw
    rcases hw with rfl | rfl | rfl <;> exact keys _ (by simp)
  · intro w hw
    simp only [List.mem_cons, List.not_mem_nil, or_false] at hw
    rcases hw with rfl | rfl | rfl | rfl | rfl | rfl
    exacts [keys _ (by simp), keys _ (by simp), word_sig hr _, word_sig hr _, word_sig hr _, word_sig hr _]
  · intro w hw
    simp only [List.mem_cons, List.not_mem_nil, or_false] at hw
    rcases hw with rfl | rfl | rfl | rfl
    exacts [keys _ (by simp), keys _ (by simp), Dmc.isWord_digs _, Dmc.isWord_digs _]
  · have e : a.layers.length = (a.layers.map LInfo.name).length := by rw [List.length_map]
    rw [e]
    refine names_say ?_ (by simp) ?_
    · intro n hn'
      obtain ⟨x, hx, rfl⟩ := List.mem_map.1 hn'
      exact profName_word _ (hn x.1 (List.fst_mem_of_mem_zipIdx hx))
    · intro i x hx hne
      rw [List.getElem?_map] at hx ⊢
      rw [List.getElem?_zipIdx]
      cases hL : a.layers[i]? with
      | none => rw [hL] at hx; cases hx
      | some L =>
        rw [hL] at hx
        simp only [Option.map_some, Option.some.injEq] at hx ⊢
        subst hx
        exact if_neg hne
  · have := tiles_say (w := a.grid.1) (h := a.grid.2) (X := fun i => um a.units (a.ext.lx + a.stride.1 * i)) (Y := fun j => um a.units (a.ext.ly + a.stride.2 * j))
      (fun x => says_sig hr x) (fun x => word_sig hr x) hr mf
    convert this using 2
    funext c
    unfold profTile
    dsimp only
    push_cast
    rw [show a.ext.lx + a.stride.1 * (c.1.1 : Int) + a.stride.1 = a.ext.lx + a.stride.1 * ((c.1.1 : Int) + 1) by ring,
      show a.ext.ly + a.stride.2 * (c.1.2 : Int) + a.stride.2 = a.ext.ly + a.stride.2 * ((c.1.2 : Int) + 1) by ring]

/-- without a fraction for each layer, or if it cannot be opened, nothing is written -/
theorem c117_profile_none (a : Info) (mf : List Frac) (dir opened : Bool) (h : a.layers.length ≠ mf.length ∨ dir = false ∨ opened = false) :
    writeProfile rnd a mf dir opened = (none, false) := by
  unfold writeProfile
  rcases h with h | rfl | rfl
  · rw [if_neg h]
  · split <;> rfl
  · split
    · cases dir <;> rfl
    · rfl

/-- C117 does not hold for all tiles: when the lower edge of a tile has six digits `n` before the place `10^j` (in micrometres) and the tile is less than half
of that place wide, then the file gives it the same lower and upper edge. -/
theorem c117_flat_refuted (hr : Nearest rnd) (a : Info) (mf : List Frac) (k : Nat) (c : Nat × Nat) {n : Nat} (h5 : 100000 ≤ n) (h6 : n < 1000000) (j : Int)
    (hx : um a.units (a.ext.lx + a.stride.1 * c.1) = (n : ℚ) * 10 ^ j) (h0 : 0 ≤ um a.units a.stride.1) (h1 : um a.units a.stride.1 < 10 ^ j / 2) :
    ∃ d x y y' fs, Words (profTile rnd a mf k c) (d :: x :: y :: x :: y' :: fs) := by
  have hp : (0 : ℚ) < 10 ^ j := zpow_pos (by norm_num) _
  have e1 : gText rnd (um a.units (a.ext.lx + a.stride.1 * c.1)) = gPos (strip (digN 6 n)) (j + 5) := by
    have := sig_same hr h5 h6 j (d := 0) (le_refl _) (by linarith)
    rw [add_zero] at this
    rw [hx, this]
  have e2 : gText rnd (um a.units (a.ext.lx + a.stride.1 * c.1 + a.stride.1)) = gPos (strip (digN 6 n)) (j + 5) := by
    rw [← sig_same hr h5 h6 j h0 h1, ← hx]
    congr 1
    unfold um Units.toUnitIn
    push_cast
    ring
  refine ⟨digs (k + 1), gText rnd (um a.units (a.ext.lx + a.stride.1 * c.1)), gText rnd (um a.units (a.ext.ly + a.stride.2 * c.2)),
    gText rnd (um a.units (a.ext.ly + a.stride.2 * c.2 + a.stride.2)), mf.map fun f => gText rnd (f c.1 c.2), ?_⟩
  have : profTile rnd a mf k c = joinSp ([digs (k + 1), gText rnd (um a.units (a.ext.lx + a.stride.1 * c.1)), gText rnd (um a.units (a.ext.ly + a.stride.2 * c.2)),
      gText rnd (um a.units (a.ext.lx + a.stride.1 * c.1)), gText rnd (um a.units (a.ext.ly + a.stride.2 * c.2 + a.stride.2))] ++ mf.map fun f => gText rnd (f c.1 c.2)) := by
    unfold profTile
    dsimp only
    rw [e2, e1]
  rw [this]
  refine join_self fun w hw => ?_
  simp only [List.mem_append, List.mem_cons, List.not_mem_nil, or_false, List.mem_map] at hw
  rcases hw with (rfl | rfl | rfl | rfl | rfl) | ⟨g, _, rfl⟩
  exacts [Dmc.isWord_digs _, word_sig hr _, word_sig hr _, word_sig hr _, word_sig hr _, word_sig hr _]

/-- C117 does not hold for the names of layers without one: they may be those of other layers. -/
theorem c117_names_refuted (i : Nat) : profName i [] = profName 0 (asc "LAYER" ++ digs i) ∧ txtName [] = txtName (asc "Unknown") ∧ asc "LAYER" ++ digs i ≠ [] := by
  have h : asc "LAYER" ++ digs i ≠ [] := by simp [Ctm.digs_ne]
  refine ⟨?_, ?_, h⟩
  · unfold profName
    rw [if_pos rfl, if_neg h]
  · unfold txtName
    rw [if_pos rfl, if_neg (keys "Unknown" (by simp)).1]

/-! ## the profile of a grid model -/

theorem fracs_some {ls : List (Bytes × Option Frac)} {mf : List Frac} (h : ls.map Prod.snd = mf.map some) : fracs ls = some mf := by
  induction ls generalizing mf with
  | nil =>
    cases mf with
    | nil => rfl
    | cons f mf => cases h
  | cons l ls ih =>
    cases mf with
    | nil => cases h
    | cons f mf =>
      rw [List.map_cons, List.map_cons] at h
      obtain ⟨h1, h2⟩ := List.cons.inj h
      rw [fracs]
      simp only [h1, ih h2, Option.map_some]

theorem fracs_none {ls : List (Bytes × Option Frac)} (h : ∃ l ∈ ls, l.2 = none) : fracs ls = none := by
  induction ls with
  | nil => obtain ⟨l, hl, _⟩ := h; cases hl
  | cons l ls ih =>
    rw [fracs]
    cases hl : l.2 with
    | none => rfl
    | some f =>
      obtain ⟨x, hx, h0⟩ := h
      rcases List.mem_cons.1 hx with rfl | hx
      · rw [hl] at h0; cases h0
      · rw [ih ⟨x, hx, h0⟩]
        rfl

/-- C117: the profile of a grid model with a fraction in each layer says the die, the scale, the layers and the tiles, if the names have no blanks.

Missing from the full claim: names with blanks; the boxes have six digits only, see `c117_die_refuted`. -/
theorem c117_txt_partial (hr : Nearest rnd) (m : GModel) (mf : List Frac) (hm : m.layers.map Prod.snd = mf.map some) (hn : ∀ l ∈ m.layers, l.1 = [] ∨ IsWord l.1) :
    ∃ v d t s l k tiles, writeTxt rnd m true = (some (eol (v :: d :: t :: s :: l :: k :: tiles)), true) ∧
      Words v [asc "#", asc "Version", asc "3.0"] ∧
      DieSays (SaysFixed 6) (m.ref.1 * 1000000) (m.ref.2 * 1000000) ((m.ref.1 + m.size.1 * m.res.1) * 1000000) ((m.ref.2 + m.size.2 * m.res.2) * 1000000) d ∧
      GridSays m.size.1 m.size.2 t ∧ (∃ p, Words s [asc "#", asc "SCALE_FACTOR", p] ∧ SaysFixed 6 p m.scaleH) ∧ NamesSay (m.layers.map Prod.fst) l k ∧
      TilesSay m.size.1 m.size.2 (fun i => (m.ref.1 + i * m.res.1) * 1000000) (fun j => (m.ref.2 + j * m.res.2) * 1000000) (SaysFixed 6) mf tiles := by
  refine ⟨_, _, _, _, _, _, _, by unfold writeTxt; rw [if_pos rfl, fracs_some hm]; rfl, join_self ?_, ⟨_, _, _, _, join_self ?_, says_fixed hr 6 _, says_fixed hr 6 _, ?_, ?_⟩,
    ⟨_, _, join_self ?_, isInt_digs _, isInt_digs _⟩, ⟨_, join_self ?_, says_fixed hr 6 _⟩, ?_, ?_⟩
  · intro w hw
    simp only [List.mem_cons, List.not_mem_nil, or_false] at hw
    rcases hw with rfl | rfl | rfl <;> exact keys _ (by simp)
  · intro w hw
    simp only [List.mem_cons, List.not_mem_nil, or_false] at hw
    rcases hw with rfl | rfl | rfl | rfl | rfl | rfl
    exacts [keys _ (by simp), keys _ (by simp), word_fixed 6 _, word_fixed 6 _, word_fixed 6 _, word_fixed 6 _]
  · have := says_fixed hr 6 m.upper.1
    have e : m.upper.1 = (m.ref.1 + m.size.1 * m.res.1) * 1000000 := by unfold GModel.upper; ring
    rw [← e]
    exact this
  · have := says_fixed hr 6 m.upper.2
    have e : m.upper.2 = (m.ref.2 + m.size.2 * m.res.2) * 1000000 := by unfold GModel.upper; ring
    rw [← e]
    exact this
  · intro w hw
    simp only [List.mem_cons, List.not_mem_nil, or_false] at hw
    rcases hw with rfl | rfl | rfl | rfl
    exacts [keys _ (by simp), keys _ (by simp), Dmc.isWord_digs _, Dmc.isWord_digs _]
  · intro w hw
    simp only [List.mem_cons, List.not_mem_nil, or_false] at hw
    rcases hw with rfl | rfl | rfl
    exacts [keys _ (by simp), keys _ (by simp), word_fixed 6 _]
  · have e : m.layers.length = (m.layers.map Prod.fst).length := by rw [List.length_map]
    rw [e]
    refine names_say ?_ (by simp) ?_
    · intro n hn'
      obtain ⟨x, hx, rfl⟩ := List.mem_map.1 hn'
      unfold txtName
      split
      · exact keys _ (by simp)
      · rename_i hne
        exact (hn x hx).resolve_left hne
    · intro i x hx hne
      rw [List.getElem?_map] at hx ⊢
      cases hL : m.layers[i]? with
      | none => rw [hL] at hx; cases hx
      | some L =>
        rw [hL] at hx
        simp only [Option.map_some, Option.some.injEq] at hx ⊢
        subst hx
        exact if_neg hne
  · have := tiles_say (w := m.size.1) (h := m.size.2) (X := fun i => (m.ref.1 + i * m.res.1) * 1000000) (Y := fun j => (m.ref.2 + j * m.res.2) * 1000000)
      (fun x => says_fixed hr 6 x) (fun x => word_fixed 6 x) hr mf
    convert this using 2
    funext c
    unfold txtTile
    dsimp only
    push_cast
    rw [show m.ref.1 * 1000000 + (c.1.1 : ℚ) * (m.res.1 * 1000000) = (m.ref.1 + c.1.1 * m.res.1) * 1000000 by ring,
      show m.ref.2 * 1000000 + (c.1.2 : ℚ) * (m.res.2 * 1000000) = (m.ref.2 + c.1.2 * m.res.2) * 1000000 by ring,
      show (m.ref.1 + (c.1.1 : ℚ) * m.res.1) * 1000000 + m.res.1 * 1000000 = (m.ref.1 + (c.1.1 + 1) * m.res.1) * 1000000 by ring,
      show (m.ref.2 + (c.1.2 : ℚ) * m.res.2) * 1000000 + m.res.2 * 1000000 = (m.ref.2 + (c.1.2 + 1) * m.res.2) * 1000000 by ring]

/-- C117 does not hold for models in which a layer has no fraction: the result is false, but the file is there, with the first four lines. -/
theorem c117_missing_refuted (m : GModel) (h : ∃ l ∈ m.layers, l.2 = none) : ∃ ls : List Bytes, ls.length = 4 ∧ writeTxt rnd m true = (some (eol ls), false) := by
  refine ⟨txtHead rnd m, rfl, ?_⟩
  unfold writeTxt
  rw [if_pos rfl, fracs_none h]

/-- a file that cannot be opened -/
theorem c117_txt_none (m : GModel) : writeTxt rnd m false = (none, false) := rfl

/-- C117 does not hold for all dies: from one metre on, an upper corner in whole micrometres that are no tens stands in the line of the die, but not in the line of
the last tile. -/
theorem c117_die_refuted (hr : Nearest rnd) (m : GModel) (mf : List Frac) (k : Nat) (i j : Nat) {z : Int} (hi : m.size.1 = i + 1) (hz : 1000000 ≤ z) (h10 : ¬ (10 : Int) ∣ z)
    (hx : (m.ref.1 + m.size.1 * m.res.1) * 1000000 = z) :
    (∃ p q r s, Words (joinSp [asc "#", asc "DIE", fixed rnd 6 (m.ref.1 * 1000000), fixed rnd 6 (m.ref.2 * 1000000), fixed rnd 6 m.upper.1, fixed rnd 6 m.upper.2])
      [asc "#", asc "DIE", p, q, r, s] ∧ IsDec r (z : ℚ)) ∧
    ∃ d x y x' y' fs, ∃ q : ℚ, Words (txtTile rnd m mf k (i, j)) (d :: x :: y :: x' :: y' :: fs) ∧ IsNum x' q ∧ q ≠ z := by
  have hu : m.upper.1 = z := by rw [← hx]; unfold GModel.upper; ring
  constructor
  · refine ⟨_, _, _, _, join_self ?_, ?_⟩
    · intro w hw
      simp only [List.mem_cons, List.not_mem_nil, or_false] at hw
      rcases hw with rfl | rfl | rfl | rfl | rfl | rfl
      exacts [keys _ (by simp), keys _ (by simp), word_fixed 6 _, word_fixed 6 _, word_fixed 6 _, word_fixed 6 _]
    · rw [hu]
      unfold fixed
      have e : (z : ℚ) * 10 ^ 6 = ((z * 10 ^ 6 : Int) : ℚ) := by push_cast; ring
      rw [e, nearest_int hr]
      have := isDec_fixText 6 (z * 10 ^ 6)
      rw [← e] at this
      rwa [mul_div_cancel_right₀ _ (by norm_num)] at this
  · have ex : m.ref.1 * 1000000 + (i : ℚ) * (m.res.1 * 1000000) + m.res.1 * 1000000 = z := by
      rw [← hx, hi]
      push_cast
      ring
    have hws : Words (txtTile rnd m mf k (i, j)) ([digs (k + 1), gText rnd (m.ref.1 * 1000000 + (i : ℚ) * (m.res.1 * 1000000)),
        gText rnd (m.ref.2 * 1000000 + (j : ℚ) * (m.res.2 * 1000000)), gText rnd (m.ref.1 * 1000000 + (i : ℚ) * (m.res.1 * 1000000) + m.res.1 * 1000000),
        gText rnd (m.ref.2 * 1000000 + (j : ℚ) * (m.res.2 * 1000000) + m.res.2 * 1000000)] ++ mf.map fun f => fixed rnd 6 (f i j)) := by
      refine join_self ?_
      intro w hw
      simp only [List.mem_append, List.mem_cons, List.not_mem_nil, or_false, List.mem_map] at hw
      rcases hw with (rfl | rfl | rfl | rfl | rfl) | ⟨g, _, rfl⟩
      exacts [Dmc.isWord_digs _, word_sig hr _, word_sig hr _, word_sig hr _, word_sig hr _, word_fixed 6 _]
    refine ⟨_, _, _, _, _, _, sigVal rnd z, hws, ?_, ?_⟩
    · rw [ex]
      exact sig_num hr _
    · obtain ⟨y, hy⟩ := sig_tens hr (x := (z : ℚ)) (by exact_mod_cast hz)
      rw [hy]
      intro e
      exact h10 ⟨y, by exact_mod_cast e.symm⟩

/-- the lines of both profiles are lines: names without blanks bring no line feed -/
theorem c117_lines (hr : Nearest rnd) (a : Info) (mf : List Frac) (m : GModel) (gs : List Frac) :
    ((∀ L ∈ a.layers, L.name = [] ∨ IsWord L.name) → ∀ l ∈ profLines rnd a mf, 10 ∉ l) ∧
    ((∀ x ∈ m.layers, x.1 = [] ∨ IsWord x.1) → ∀ l ∈ txtHead rnd m ++ txtBody rnd m gs, 10 ∉ l) := by
  have key : ∀ s ∈ ["#", "Version", "3.0", "DIE", "TILE", "LAYER", "SCALE_FACTOR"], 10 ∉ asc s := by decide +kernel
  have hd : ∀ n, 10 ∉ digs n := fun n => lf_word (Dmc.isWord_digs n)
  have hg : ∀ x, 10 ∉ gText rnd x := fun x => lf_word (word_sig hr x)
  have hf : ∀ x, 10 ∉ fixed rnd 6 x := fun x => lf_word (word_fixed 6 x)
  have hk : ∀ t ∈ tileKeys, 10 ∉ t := fun t ht => lf_word (tileKeys_word t ht)
  constructor
  · intro hn l hl
    have hnm : ∀ t ∈ (a.layers.zipIdx.map fun l => profName l.2 l.1.name), 10 ∉ t := by
      intro t ht
      obtain ⟨x, hx, rfl⟩ := List.mem_map.1 ht
      exact lf_word (profName_word _ (hn x.1 (List.fst_mem_of_mem_zipIdx hx)))
    unfold profLines at hl
    simp only [List.mem_cons, List.mem_map] at hl
    rcases hl with rfl | rfl | rfl | rfl | rfl | ⟨c, _, rfl⟩
    · refine join_lf fun w hw => ?_
      simp only [List.mem_cons, List.not_mem_nil, or_false] at hw
      rcases hw with rfl | rfl | rfl <;> exact key _ (by simp)
    · refine join_lf fun w hw => ?_
      simp only [List.mem_cons, List.not_mem_nil, or_false] at hw
      rcases hw with rfl | rfl | rfl | rfl | rfl | rfl
      exacts [key _ (by simp), key _ (by simp), hg _, hg _, hg _, hg _]
    · refine join_lf fun w hw => ?_
      simp only [List.mem_cons, List.not_mem_nil, or_false] at hw
      rcases hw with rfl | rfl | rfl | rfl
      exacts [key _ (by simp), key _ (by simp), hd _, hd _]
    · refine join_lf fun w hw => ?_
      rcases List.mem_append.1 hw with hw | hw
      · simp only [List.mem_cons, List.not_mem_nil, or_false] at hw
        rcases hw with rfl | rfl | rfl
        exacts [key _ (by simp), key _ (by simp), hd _]
      · exact hnm w hw
    · refine join_lf fun w hw => ?_
      rcases List.mem_append.1 hw with hw | hw
      · exact hk w hw
      · exact hnm w hw
    · refine join_lf fun w hw => ?_
      simp only [List.mem_append, List.mem_cons, List.not_mem_nil, or_false, List.mem_map] at hw
      rcases hw with (rfl | rfl | rfl | rfl | rfl) | ⟨g, _, rfl⟩
      exacts [hd _, hg _, hg _, hg _, hg _, hg _]
  · intro hn l hl
    have hnm : ∀ t ∈ (m.layers.map fun l => txtName l.1), 10 ∉ t := by
      intro t ht
      obtain ⟨x, hx, rfl⟩ := List.mem_map.1 ht
      unfold txtName
      split
      · exact lf_word (keys _ (by simp))
      · rename_i hne
        exact lf_word ((hn x hx).resolve_left hne)
    unfold txtHead txtBody at hl
    simp only [List.mem_append, List.mem_cons, List.not_mem_nil, or_false, List.mem_map] at hl
    rcases hl with (rfl | rfl | rfl | rfl) | rfl | rfl | ⟨c, _, rfl⟩
    · refine join_lf fun w hw => ?_
      simp only [List.mem_cons, List.not_mem_nil, or_false] at hw
      rcases hw with rfl | rfl | rfl <;> exact key _ (by simp)
    · refine join_lf fun w hw => ?_
      simp only [List.mem_cons, List.not_mem_nil, or_false] at hw
      rcases hw with rfl | rfl | rfl | rfl | rfl | rfl
      exacts [key _ (by simp), key _ (by simp), hf _, hf _, hf _, hf _]
    · refine join_lf fun w hw => ?_
      simp only [List.mem_cons, List.not_mem_nil, or_false] at hw
      rcases hw with rfl | rfl | rfl | rfl
      exacts [key _ (by simp), key _ (by simp), hd _, hd _]
    · refine join_lf fun w hw => ?_
      simp only [List.mem_cons, List.not_mem_nil, or_false] at hw
      rcases hw with rfl | rfl | rfl
      exacts [key _ (by simp), key _ (by simp), hf _]
    · refine join_lf fun w hw => ?_
      rcases List.mem_append.1 hw with hw | hw
      · simp only [List.mem_cons, List.not_mem_nil, or_false] at hw
        rcases hw with rfl | rfl | rfl
        exacts [key _ (by simp), key _ (by simp), hd _]
      · exact hnm w hw
    · refine join_lf fun w hw => ?_
      rcases List.mem_append.1 hw with hw | hw
      · exact hk w hw
      · exact hnm w hw
    · refine join_lf fun w hw => ?_
      simp only [List.mem_append, List.mem_cons, List.not_mem_nil, or_false, List.mem_map] at hw
      rcases hw with (rfl | rfl | rfl | rfl | rfl) | ⟨g, _, rfl⟩
      exacts [hd _, hg _, hg _, hg _, hg _, hf _]

/-! ## examples -/

/-- rounding to the nearest, halves upwards -/
def exRnd (q : ℚ) : Int := Int.floor (q + 1 / 2)

theorem exNearest : Nearest exRnd := by
  intro q
  have h1 := Int.floor_le (q + 1 / 2)
  have h2 := Int.lt_floor_add_one (q + 1 / 2)
  unfold exRnd
  rw [abs_le]
  constructor <;> linarith

/-- two layers, a grid of two by one tiles of a millimetre, nanometres as coordinates -/
def exInfo : Info :=
  { grid := (2, 1), origin := ⟨0, 0, 2000000, 1000000⟩, ext := ⟨0, 0, 2000000, 1000000⟩, units := Units.make (1 / 1000) (1 / 1000000000), stride := (1000000, 1000000),
    layers := [⟨true, 0, 1 / 10, asc "TOP"⟩, ⟨false, -1 / 10, 1 / 5, asc "SUB"⟩] }

/-- a quarter and a third of the tiles -/
def exMf : List Frac := [fun i _ => if i = 0 then 1 / 4 else 1, fun _ _ => 1 / 3]

example : (∀ L ∈ exInfo.layers, IsWord L.name) ∧ (exInfo.stride.1 : ℚ) * (1 / 1000000) < 10 - 1 / 1000000000 ∧ 0 ≤ (exInfo.stride.1 : ℚ) * (1 / 1000000) := by
  refine ⟨?_, by norm_num [exInfo], by norm_num [exInfo]⟩
  unfold IsWord
  decide +kernel

example : resultLines exRnd (1 / 1000000) exInfo exMf =
    [asc "LAYERS 2", [], asc "LAYER TOP 1  0.000000000  0.000000100", asc "LAYER SUB 0 -0.000000100  0.000000200", [],
      asc "ORIGIN  0.000000000  0.000000000  2.000000000  1.000000000", asc "EXTENSION  0.000000000  0.000000000  2.000000000  1.000000000",
      asc "TILE 2 1", asc "RESOLUTION 1.000000000  1.000000000", [], asc "0 0 0.250000 0.333333", asc "1 0 1.000000 0.333333"] := by
  decide +kernel

example : profLines exRnd exInfo exMf =
    [asc "# Version 3.0", asc "# DIE 0 0 2000 1000", asc "# TILE 2 1", asc "# LAYER 2 TOP SUB", asc "# TileID X1(um) Y1(um) X2(um) Y2(um) TOP SUB",
      asc "1 0 0 1000 1000 0.25 0.333333", asc "2 1000 0 2000 1000 1 0.333333"] := by
  decide +kernel

/-- a name of two words, and none -/
example : Words (asc "LAYER 1") [asc "LAYER", asc "1"] ∧ Words [] [] := by
  refine ⟨join_self (ws := [asc "LAYER", asc "1"]) ?_, .nil (by simp)⟩
  unfold IsWord
  decide +kernel

/-- a resolution of twelve units -/
example : 10000000000 ≤ exRnd (((12 : Int) : ℚ) * 1 * 10 ^ 9) ∧ resLine exRnd 1 (12, 1) = asc "RESOLUTION12.000000000  1.000000000" := by
  decide +kernel

/-- an edge at ten centimetres and tiles of four tenths of a micrometre: `n = 100000`, `j = 0` -/
def exFlat : Info :=
  { grid := (2, 1), origin := ⟨0, 0, 0, 0⟩, ext := ⟨1000000, 0, 1000008, 4⟩, units := Units.make (1 / 1000) (1 / 10000000), stride := (4, 4), layers := [] }

example : um exFlat.units (exFlat.ext.lx + exFlat.stride.1 * (0 : Nat)) = ((100000 : Nat) : ℚ) * 10 ^ (0 : Int) ∧ 0 ≤ um exFlat.units exFlat.stride.1 ∧
    um exFlat.units exFlat.stride.1 < 10 ^ (0 : Int) / 2 ∧ profTile exRnd exFlat [] 0 (0, 0) = asc "1 100000 0 100000 0.4" := by
  refine ⟨by norm_num [um, exFlat, Units.toUnitIn, Units.make], by norm_num [um, exFlat, Units.toUnitIn, Units.make], by norm_num [um, exFlat, Units.toUnitIn, Units.make], ?_⟩
  decide +kernel

/-- a die a little longer than one metre -/
def exLong : GModel := { ref := (0, 0), res := (1000005 / 1000000, 1), size := (1, 1), scaleH := 1, layers := [(asc "L", some fun _ _ => 1), ([], none)] }

example : exLong.size.1 = 0 + 1 ∧ (exLong.ref.1 + exLong.size.1 * exLong.res.1) * 1000000 = ((1000005 : Int) : ℚ) ∧ ¬ (10 : Int) ∣ 1000005 ∧ (∃ l ∈ exLong.layers, l.2 = none) := by
  refine ⟨rfl, by norm_num [exLong], by decide, ⟨([], none), by simp [exLong], rfl⟩⟩

end Ecad.Profile
