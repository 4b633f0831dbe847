import Verif.Ctm.LayoutPackModel
import Verif.Ctm.LayoutProps
import Verif.Ctm.PackProps
import Mathlib.Algebra.Order.BigOperators.Group.List
/-!
C155: the files made of a layout, read again.
-/
namespace Ecad.Ctm

/-- a header with a first line that can be recognised, and the vias as they are written -/
def plain (h : Header) : Header := { h with head := 35 :: h.head, vias := h.vias.map fun v => (v.1, orNone v.2.1, orNone v.2.2) }

theorem orNone_orNone (t : Bytes) : orNone (orNone t) = orNone t := by
  unfold orNone
  split_ifs with h1 h2 <;> first | rfl | (revert h2; decide) | skip

variable {rnd : ℚ → Int} {sep : Nat → Bool}

theorem writeLines_plain (h : Header) (he : h.encrypted = false) : writeLines rnd h = (h.head ++ [32]) :: (writeLines rnd (plain h)).tail := by
  have hv : (plain h).vias.map viaRow = h.vias.map viaRow := by
    unfold plain
    simp only [List.map_map]
    refine List.map_congr_left fun v _ => ?_
    simp [viaRow, orNone_orNone]
  unfold writeLines
  rw [hv]
  have hn : num rnd (plain h) = num rnd h := rfl
  have hm : metalRow rnd (plain h) = metalRow rnd h := rfl
  rw [hn, hm, he]
  rfl

/-- the lines after the first -/
theorem read_tail (hs : Blank sep) {h : Header} (hw : Writable rnd h) (hd : Bytes) :
    readLines sep .top { head := hd, encrypted := h.encrypted } ((writeLines rnd h).tail ++ [[]]) = .ok (some { reread rnd h with head := hd }) := by
  unfold writeLines
  simp only [List.append_assoc, List.cons_append, List.nil_append, List.tail_cons]
  have h125 : sep 125 = false := by
    by_contra h
    have := hs.only 125 (by simpa using h)
    omega
  have hend : ∀ g : Header, stepMetal sep g [125] = .ok (some (.top, g)) ∧ stepVia sep g [125] = .ok (some (.top, g)) := by
    intro g
    constructor
    · unfold stepMetal
      rw [if_neg (by simp), if_neg (by simp), List.dropWhile_cons_of_neg (by simp [h125]), if_pos (by simp)]
    · unfold stepVia
      rw [if_neg (by simp), if_neg (by simp), List.dropWhile_cons_of_neg (by simp [h125]), if_pos (by simp)]
  refine (readLines_cons (m := .top) (step_layers hs hw _ (by rfl)) _).trans ?_
  refine (readLines_cons (m := .top) (step_die hs hw.size _) _).trans ?_
  refine (readLines_cons (m := .top) (step_temp hs hw.temps _) _).trans ?_
  refine (readLines_cons (m := .top) (step_tile hs hw.tiles.1 hw.tiles.2 _) _).trans ?_
  refine (readLines_cons (m := .top) (step_resolution hs _ _) _).trans ?_
  refine (readLines_cons (m := .top) (step_dieOrig hs hw.size _) _).trans ?_
  refine (readLines_cons (m := .top) (step_scale hs _ _) _).trans ?_
  refine (readLines_cons (m := .top) (step_all hs hw _) _).trans ?_
  refine (readLines_cons (m := .top) (step_blank _) _).trans ?_
  refine (readLines_cons (m := .top) (step_openMetal _) _).trans ?_
  refine (readLines_cons (m := .metal) (step_comment _).1 _).trans ?_
  refine (read_metals hs hw _ _ _ (fun m hm => hm) (by rfl)).trans ?_
  refine (readLines_cons (m := .metal) (hend _).1 _).trans ?_
  refine (readLines_cons (m := .top) (step_openVia _) _).trans ?_
  refine (readLines_cons (m := .via) (step_comment _).2 _).trans ?_
  refine (read_vias hs hw _ _ _ (fun m hm => hm)).trans ?_
  refine (readLines_cons (m := .via) (hend _).2 _).trans ?_
  refine (readLines_cons (m := .top) (step_blank _) _).trans ?_
  rfl

/-- headers with the default first line, not encrypted, are read back; vias without a neighbour get one of the name `None` -/
theorem read_default (hs : Blank sep) {h : Header} (hd : h.head = defaultHead) (he : h.encrypted = false) (hw : Writable rnd (plain h)) :
    read sep (write rnd h) = .ok (some (got rnd h defaultHead (plain h).vias)) := by
  have hlf : ∀ l ∈ writeLines rnd h, 10 ∉ l := by
    rw [writeLines_plain h he]
    intro l hl
    rcases List.mem_cons.1 hl with rfl | hl
    · rw [hd]; decide
    · exact no_lf_write hw l (List.mem_of_mem_tail hl)
  have hhead : stepTop sep {} (defaultHead ++ [32]) = .ok (some (.top, {})) := by
    unfold stepTop
    rw [if_neg (by decide), if_neg (by decide), if_neg (by decide), if_neg (by decide), if_neg (by decide), if_neg (by decide), if_neg (by decide), if_neg (by decide),
      if_neg (by decide), if_neg (by decide), if_neg (by decide)]
  have ht := read_tail hs hw defaultHead
  have e : (plain h).encrypted = false := he
  rw [e] at ht
  unfold read write
  rw [fileLines_write _ hlf, writeLines_plain h he, hd, List.cons_append, readLines_cons (m := .top) hhead, ht]
  rfl

/-- a name of some words, with a blank between them -/
def Words (t : Bytes) (ws : List Bytes) : Prop := ws ≠ [] ∧ (∀ w ∈ ws, Tok w) ∧ sp ws = 32 :: t

theorem layer_words (h : Header) (he : h.encrypted = false) : ∀ (ls : List (Bytes × ℚ)), (∀ l ∈ ls, ∃ ws, Words l.1 ws) →
    ∃ ts, (∀ t ∈ ts, Tok t) ∧ sp ts = sp (ls.flatMap fun l => [l.1, num rnd h l.2 l.1.length]) ∧ 2 * ls.length ≤ ts.length ∧
      ((∃ l ∈ ls, ∀ ws, Words l.1 ws → 2 ≤ ws.length) → 2 * ls.length < ts.length)
  | [], _ => ⟨[], by simp, rfl, le_refl _, by simp⟩
  | l :: ls, hl => by
    obtain ⟨ts, t1, t2, t3, t4⟩ := layer_words h he ls fun e he => hl e (by simp [he])
    obtain ⟨ws, hws⟩ := hl l (by simp)
    obtain ⟨w1, w2, w3⟩ := hws
    have hpos := List.length_pos_iff.2 w1
    refine ⟨ws ++ fmt rnd l.2 :: ts, ?_, ?_, ?_, ?_⟩
    · intro t ht
      rw [List.mem_append, List.mem_cons] at ht
      rcases ht with ht | rfl | ht
      · exact w2 t ht
      · exact tok_fmt rnd _
      · exact t1 t ht
    · have hn : num rnd h l.2 l.1.length = fmt rnd l.2 := by simp [num, he]
      have e : sp (ws ++ fmt rnd l.2 :: ts) = sp ws ++ (32 :: fmt rnd l.2) ++ sp ts := by simp [sp]
      rw [e, w3, t2, List.flatMap_cons, hn]
      simp [sp]
    · simp only [List.length_append, List.length_cons]
      omega
    · rintro ⟨e, he', hb⟩
      simp only [List.length_append, List.length_cons]
      rcases List.mem_cons.1 he' with rfl | he'
      · have := hb ws ⟨w1, w2, w3⟩
        omega
      · have := t4 ⟨e, he', hb⟩
        omega

/-- a header with a name of several words is written, but not read -/
theorem read_words (hs : Blank sep) {h : Header} (hd : h.head = defaultHead) (he : h.encrypted = false) (hc : h.layers.length < 2 ^ 60)
    (hl : ∀ l ∈ h.layers, ∃ ws, Words l.1 ws) (hb : ∃ l ∈ h.layers, ∀ ws, Words l.1 ws → 2 ≤ ws.length) : read sep (write rnd h) = .ok none := by
  obtain ⟨ts, t1, t2, -, t4⟩ := layer_words (rnd := rnd) h he h.layers hl
  have t4 := t4 hb
  have hline : kLayer ++ sp (digs h.layers.length :: h.layers.flatMap fun l => [l.1, num rnd h l.2 l.1.length]) = kLayer ++ sp (digs h.layers.length :: ts) := by
    have e : ∀ t us, sp (t :: us) = 32 :: t ++ sp us := fun t us => by simp [sp]
    rw [e, e, t2]
  have htoks : ∀ t ∈ digs h.layers.length :: ts, Tok t := by
    intro t ht
    rcases List.mem_cons.1 ht with rfl | ht
    · exact tok_digs _
    · exact t1 t ht
  have hstep1 : stepTop sep {} (defaultHead ++ [32]) = .ok (some (.top, {})) := by
    unfold stepTop
    rw [if_neg (by decide), if_neg (by decide), if_neg (by decide), if_neg (by decide), if_neg (by decide), if_neg (by decide), if_neg (by decide), if_neg (by decide),
      if_neg (by decide), if_neg (by decide), if_neg (by decide)]
  norm_num only at hc
  have hstep2 : stepTop sep {} (kLayer ++ sp (digs h.layers.length :: ts)) = .ok none := by
    unfold stepTop
    rw [if_neg (by simp [kLayer]), if_neg (by simp [kLayer, kVersion]), if_pos (by simp [kLayer]), split_line hs tok_kLayer _ htoks]
    simp only
    rw [stol_digs, orExn, Res.bind_ok, toSize_nat (by norm_num only; omega), if_pos (by norm_num only; omega)]
  obtain ⟨more, hmore⟩ : ∃ more, writeLines rnd h = (h.head ++ 32 :: (if h.encrypted then 40 :: kEncrypted ++ [41] else [])) ::
      (kLayer ++ sp (digs h.layers.length :: h.layers.flatMap fun l => [l.1, num rnd h l.2 l.1.length])) :: more := ⟨_, rfl⟩
  unfold read write
  rw [hmore, hline, fileLines_cons _ (by rw [hd, he]; decide), fileLines_cons _ (no_lf_line tok_kLayer htoks), readLines, step, hd, he, if_neg (by simp)]
  rw [hstep1, Res.bind_ok]
  simp only
  rw [readLines, step, hstep2]
  rfl

/-- a package is written whatever its names are -/
theorem package_written (f : Flt ℚ) (lin : Nat → Nat → Nat → Nat → Nat) (m : Model) (P : ℚ → Grid2 ℚ) (D : Bytes → Grid2 ℚ) (htemps : 5 ≤ m.header.temps.length)
    (hpow : ∃ table, m.powers = some table ∧ ∀ t ∈ m.header.temps, UMap.find? table t = some (P t)) (hlay : m.header.layers ≠ [])
    (hden : ∀ l ∈ m.header.layers, UMap.find? m.densities l.1 = some (some (D l.1)))
    (hsized : ∀ l ∈ m.header.layers, (D l.1).w = m.header.tiles.1 ∧ (D l.1).h = m.header.tiles.2 ∧ (D l.1).cells.length = m.header.tiles.1 * m.header.tiles.2)
    (hl : ∀ x y, x < m.header.tiles.1 → y < m.header.tiles.2 → lin m.header.tiles.1 m.header.tiles.2 x y < m.header.tiles.1 * m.header.tiles.2) (d : Dir) :
    ∃ d', generate rnd f lin m d = .ok (d', true) ∧ UMap.find? d' fHeader = some (write rnd m.header) := by
  obtain ⟨table, htab, hP⟩ := hpow
  have hts : ∀ t ∈ m.header.temps, UMap.find? table t ≠ none := fun t ht => by rw [hP t ht]; simp
  obtain ⟨g1, g2, -⟩ := genPowers_spec f table m.header.temps hts 0 (d.put fHeader (write rnd m.header))
  have hD := genDensities_spec m D m.header.layers hden
  have hsz : Sized m.header.tiles.1 m.header.tiles.2 (m.header.layers.map fun l => D l.1) := by
    intro g hg
    obtain ⟨l, hl, rfl⟩ := List.mem_map.1 hg
    exact hsized l hl
  have hsz0 : Sized m.header.tiles.1 m.header.tiles.2 ((m.header.layers).map fun _ => newGrid m.header.tiles) := by
    intro g hg
    obtain ⟨l, hl, rfl⟩ := List.mem_map.1 hg
    exact ⟨rfl, rfl, by simp [newGrid]⟩
  obtain ⟨b, hb1, -⟩ := c109_density_partial f lin m.header.resolution (m.header.size.getD 0 0, m.header.size.getD 1 0) m.header.tiles.1 m.header.tiles.2
    (m.header.layers.map fun l => D l.1) _ (by simp [hlay]) hsz hl hsz0 (by simp)
  generalize hd' : (genPowers f table 0 m.header.temps (d.put fHeader (write rnd m.header))) = r at g1 g2
  obtain ⟨d1, ok⟩ := r
  dsimp only at g1 g2
  subst g1
  refine ⟨d1.put fDensity b, ?_, ?_⟩
  · unfold generate
    rw [if_neg (by have := htemps; omega)]
    dsimp only
    simp only [htab, hd', hD, hb1, Res.bind_ok]
  · rw [find_put, if_neg (by decide), g2 _ (fun j _ h => fPower_header _ h.symm), find_put, if_pos rfl]

end Ecad.Ctm

namespace Ecad.L2C
open Ecad.Ctm Ecad.Units Ecad.Profile

variable {S : Type} {rnd : ℚ → Int} {sep : Nat → Bool}

theorem asc_inj {s t : String} (h : asc s = asc t) : s = t := by
  unfold asc at h
  have : Function.Injective Char.toNat := fun a b hab => by
    apply Char.ext
    exact UInt32.toNat_inj.1 hab
  exact String.toList_inj.1 (List.map_injective_iff.2 this h)

theorem find_densities (ds : List (String × Frac ℚ)) (n : String) : UMap.find? (ds.map fun e => (asc e.1, some (gridData e.2))) (asc n) = (densityOf ds n).map fun f => some (gridData f) := by
  induction ds with
  | nil => rfl
  | cons e ds ih =>
    by_cases h : e.1 = n
    · simp [UMap.find?, densityOf, h]
    · have h' : asc e.1 ≠ asc n := fun hh => h (asc_inj hh)
      unfold densityOf at ih ⊢
      rw [List.map_cons, List.find?_cons_of_neg (by simpa using h), ← ih]
      simp [UMap.find?, h']

/-- the least and the greatest height in a stack -/
theorem elev_bounds {P : Type} (e : ℚ) (ls : List (GLay ℚ P)) (ht : ∀ l ∈ ls, 0 ≤ l.thick) :
    ∀ p ∈ stackOf e ls, p.1.elev ≤ e ∧ e ≤ p.1.elev + (ls.map GLay.thick).sum * 1000000 ∧ p.1.thick ≤ (ls.map GLay.thick).sum * 1000000 := by
  induction ls generalizing e with
  | nil => simp [stackOf]
  | cons l ls ih =>
    intro p hp
    have hl := ht l (by simp)
    have hsum : 0 ≤ (ls.map GLay.thick).sum := List.sum_nonneg fun x hx => by
      obtain ⟨g, hg, rfl⟩ := List.mem_map.1 hx
      exact ht g (by simp [hg])
    rw [stackOf] at hp
    simp only [List.map_cons, List.sum_cons]
    rcases List.mem_cons.1 hp with rfl | hp
    · refine ⟨le_refl _, ?_, ?_⟩ <;> dsimp only <;> nlinarith
    · obtain ⟨h1, h2, h3⟩ := ih (e - l.thick * 1000000) (fun g hg => ht g (by simp [hg])) p hp
      refine ⟨?_, ?_, ?_⟩ <;> nlinarith

/-- the thickness of a layer in micrometres, as the code takes it -/
def um (a : Input S) (l : Layer) : ℚ := l.thick * a.units.precision * 1000000

/-- what is asked of a layout: layers with different names and not a hundred kilometres thick, tiles, and numbers rounded to a neighbour -/
structure Writes (size : Int → Int → Nat) (rnd : ℚ → Int) (a : Input S) : Prop where
  x : 0 < (tiles size a).1 ∧ (tiles size a).1 ≤ 100000
  y : 0 < (tiles size a).2 ∧ (tiles size a).2 ≤ 100000
  some : a.layers ≠ []
  few : a.layers.length < 2 ^ 60
  names : (a.layers.map Layer.name).Nodup
  thick : ∀ l ∈ a.layers, 0 ≤ l.thick * a.units.precision
  res : 0 ≤ (a.stride : ℚ) * a.units.precision
  near : ∀ x, |(rnd x : ℚ) - x| ≤ 1
  thin : (a.layers.map (um a)).sum ≤ 100000000000

theorem digs_length : ∀ (k n : Nat), n < 10 ^ (k + 1) → (digs n).length ≤ k + 1
  | 0, n, h => by
    rw [digs, dif_pos (by omega)]
    simp
  | k + 1, n, h => by
    rw [digs]
    split
    · simp
    · rw [List.length_append]
      have := digs_length k (n / 10) (by
        rw [Nat.div_lt_iff_lt_mul (by norm_num)]
        calc n < 10 ^ (k + 1 + 1) := h
          _ = 10 ^ (k + 1) * 10 := pow_succ _ _)
      simp only [List.length_cons, List.length_nil]
      omega

theorem Writes.short {size : Int → Int → Nat} {a : Input S} (h : Writes size rnd a) (x : ℚ) (h0 : 0 ≤ x) (h1 : x ≤ (a.layers.map (um a)).sum) : (fmt rnd x).length ≤ 20 := by
  have h2 := h.thin
  have h3 := abs_le.1 (h.near (x * 1000000))
  have l1 : (-1 : ℚ) ≤ rnd (x * 1000000) := by linarith [h3.1]
  have l2 : (rnd (x * 1000000) : ℚ) ≤ 100000000000000001 := by linarith [h3.2]
  have l1 : -1 ≤ rnd (x * 1000000) := by exact_mod_cast l1
  have l2 : rnd (x * 1000000) ≤ 100000000000000001 := by exact_mod_cast l2
  unfold fmt fmtMicro
  have := digs_length 11 ((rnd (x * 1000000)).natAbs / 1000000) (by norm_num only; omega)
  simp only [List.length_append, List.length_cons, pad6]
  split <;> simp <;> omega

/-- names of one word that fit -/
def Word (l : Layer) : Prop := Tok (asc l.name) ∧ (asc l.name).length ≤ 20 ∧ (asc l.name).head? ≠ some 125

variable {size : Int → Int → Nat} {part : Box → S → ℚ}

/-- the chip model of a layout -/
def chipOf (part : Box → S → ℚ) (a : Input S) (n : Nat × Nat) : Chip ℚ (Table ℚ) :=
  let g := gridModel part a n.1 n.2
  let st := stackOf (totalThick g.layers * 1000000) g.layers
  { tiles := n
    scale := 1
    res := a.stride * a.units.precision * 1000000
    metals := (st.filter fun p => p.2.isMetal).map Prod.fst
    vias := (st.filter fun p => !p.2.isMetal).map fun p => ⟨p.1.name, p.2.top, p.2.bot⟩
    tech := st.map fun p => p.1.name
    densities := densitiesOf g.layers
    powers := some ([25, 50, 75, 100, 125].map fun t => (t, ⟨n.1, n.2, cellPower (fun (p : Empty) _ _ _ => p.elim) g.layers t⟩)) }

theorem chip_eq {a : Input S} (h : Writes size rnd a) : chip size part a = .ok (some (chipOf part a (tiles size a))) := by
  obtain ⟨c, hc, -, hres, -⟩ := c103_layers (size := size) part a h.x.1 h.y.1 h.names h.thick h.res
  rw [hc]
  congr 2
  unfold chip at hc
  change (if (tiles size a).1 = 0 ∨ (tiles size a).2 = 0 then Res.ub else .ok (toChip _ (gridModel part a (tiles size a).1 (tiles size a).2))) = _ at hc
  rw [if_neg (by have := h.x.1; have := h.y.1; omega)] at hc
  injection hc with hc
  unfold toChip at hc
  by_cases hr : (gridModel part a (tiles size a).1 (tiles size a).2).res.1 ≠ (gridModel part a (tiles size a).1 (tiles size a).2).res.2
  · rw [if_pos hr] at hc
    cases hc
  rw [if_neg hr] at hc
  dsimp only at hc
  by_cases hl : (densitiesOf (gridModel part a (tiles size a).1 (tiles size a).2).layers).length ≠ (stackOf (totalThick (gridModel part a (tiles size a).1 (tiles size a).2).layers * 1000000) (gridModel part a (tiles size a).1 (tiles size a).2).layers).length
  · rw [if_pos hl] at hc
    cases hc
  rw [if_neg hl] at hc
  have hc := Option.some.inj hc
  rw [← hc] at hres ⊢
  unfold chipOf
  dsimp only at hres ⊢
  rw [hres]
  rfl

theorem grid_get (a : Input S) (nx ny : Nat) (ht : ∀ l ∈ a.layers, 0 ≤ l.thick * a.units.precision) :
    ∀ g ∈ (gridModel part a nx ny).layers, ∃ l ∈ a.layers, g.name = l.name ∧ g.isMetal = l.metal ∧ g.thick = l.thick * a.units.precision ∧
      (g.top = "" ∨ ∃ l' ∈ a.layers, g.top = l'.name) ∧ (g.bot = "" ∨ ∃ l' ∈ a.layers, g.bot = l'.name) := by
  obtain ⟨h1, h2⟩ := append_all (nx, ny) (a.layers.map (gridLayer part a (a.x.axis a.units nx) (a.y.axis a.units ny))) (by
    intro g hg
    obtain ⟨l, hl, rfl⟩ := List.mem_map.1 hg
    simpa [gridLayer, toUnitIn] using ht l hl) (by
    intro g hg
    obtain ⟨l, hl, rfl⟩ := List.mem_map.1 hg
    rfl)
  intro g hg
  obtain ⟨k, hk⟩ := List.getElem?_of_mem hg
  have hlt : k < a.layers.length := by
    have := (List.getElem?_eq_some_iff.1 hk).1
    unfold gridModel at this
    dsimp only at this
    rw [h1] at this
    simpa using this
  have := h2 k (gridLayer part a (a.x.axis a.units nx) (a.y.axis a.units ny) a.layers[k]) (by simp [hlt])
  unfold gridModel at hk
  dsimp only at hk
  rw [hk] at this
  injection this with this
  subst this
  refine ⟨a.layers[k], List.getElem_mem _, rfl, rfl, by simp [linked, gridLayer, toUnitIn], ?_, ?_⟩
  · cases k with
    | zero => exact .inl rfl
    | succ k => exact .inr ⟨a.layers[k], List.getElem_mem _, by simp [linked, above, show k < a.layers.length by omega, gridLayer]⟩
  · by_cases hk' : k + 1 < a.layers.length
    · exact .inr ⟨a.layers[k + 1], List.getElem_mem _, by simp [linked, below, hk', gridLayer]⟩
    · exact .inl (by simp [linked, below, show a.layers.length ≤ k + 1 by omega, gridLayer])

theorem stack_eq (a : Input S) (nx ny : Nat) (e : ℚ) (ht : ∀ l ∈ a.layers, 0 ≤ l.thick * a.units.precision) :
    ((stackOf e (gridModel part a nx ny).layers).map fun p => (p.1.name, p.1.thick, p.2.isMetal)) = a.layers.map fun l => (l.name, um a l, l.metal) := by
  obtain ⟨h1, h2⟩ := grid_layers part a nx ny ht
  refine List.ext_getElem? fun k => ?_
  rw [List.getElem?_map, List.getElem?_map]
  cases hk : a.layers[k]? with
  | none =>
    have : (stackOf e (gridModel part a nx ny).layers)[k]? = none := by
      rw [List.getElem?_eq_none_iff, ← List.length_map (f := Prod.snd), stackOf_snd, h1]
      exact List.getElem?_eq_none_iff.1 hk
    rw [this]
    rfl
  | some l =>
    obtain ⟨g, hg, hn, hm, htk, -, -⟩ := h2 k l hk
    rw [stackOf_getElem e _ k g hg]
    simp [hn, hm, htk, um]

theorem thick_sum (a : Input S) (nx ny : Nat) (ht : ∀ l ∈ a.layers, 0 ≤ l.thick * a.units.precision) :
    ((gridModel part a nx ny).layers.map GLay.thick).sum * 1000000 = (a.layers.map (um a)).sum := by
  have h := congrArg (fun t => (t.map fun (q : String × ℚ × Bool) => q.2.1).sum) (stack_eq (part := part) a nx ny 0 ht)
  simp only [List.map_map] at h
  rw [show (a.layers.map (um a)) = a.layers.map ((fun (q : String × ℚ × Bool) => q.2.1) ∘ fun l => (l.name, um a l, l.metal)) from rfl, ← h]
  have : ∀ p ∈ stackOf 0 (gridModel part a nx ny).layers, ((fun (q : String × ℚ × Bool) => q.2.1) ∘ fun p => (p.1.name, p.1.thick, p.2.isMetal)) p = (GLay.thick ∘ Prod.snd) p * 1000000 := fun p hp => (stackOf_mem 0 _ p hp).2
  rw [List.map_congr_left this, List.sum_map_mul_right, ← List.map_map, stackOf_snd]

theorem header_layers {a : Input S} (h : Writes size rnd a) :
    (full (gridModel part a (tiles size a).1 (tiles size a).2) (chipOf part a (tiles size a))).header.layers = a.layers.map fun l => (asc l.name, um a l) := by
  have := congrArg (List.map fun (q : String × ℚ × Bool) => (asc q.1, q.2.1)) (stack_eq (part := part) a (tiles size a).1 (tiles size a).2 (totalThick (gridModel part a (tiles size a).1 (tiles size a).2).layers * 1000000) h.thick)
  simp only [List.map_map] at this
  exact this

theorem header_tech {a : Input S} (h : Writes size rnd a) :
    (full (gridModel part a (tiles size a).1 (tiles size a).2) (chipOf part a (tiles size a))).header.tech = a.layers.map fun l => asc l.name := by
  have := congrArg (List.map fun (q : String × ℚ × Bool) => asc q.1) (stack_eq (part := part) a (tiles size a).1 (tiles size a).2 (totalThick (gridModel part a (tiles size a).1 (tiles size a).2).layers * 1000000) h.thick)
  unfold full chipOf
  dsimp only
  rw [List.map_map]
  simp only [List.map_map] at this
  exact this

theorem header_metals {a : Input S} (h : Writes size rnd a) :
    ((full (gridModel part a (tiles size a).1 (tiles size a).2) (chipOf part a (tiles size a))).header.metals.map fun m => (m.1, m.2.1)) =
      (a.layers.filter Layer.metal).map fun l => (asc l.name, um a l) := by
  have := congrArg (fun t => (t.filter fun (q : String × ℚ × Bool) => q.2.2).map fun (q : String × ℚ × Bool) => (asc q.1, q.2.1)) (stack_eq (part := part) a (tiles size a).1 (tiles size a).2 (totalThick (gridModel part a (tiles size a).1 (tiles size a).2).layers * 1000000) h.thick)
  unfold full chipOf
  dsimp only
  rw [List.map_map, List.map_map]
  simp only [List.filter_map, List.map_map] at this
  exact this

theorem header_vias {a : Input S} (h : Writes size rnd a) :
    ((full (gridModel part a (tiles size a).1 (tiles size a).2) (chipOf part a (tiles size a))).header.vias.map fun v => v.1) =
      (a.layers.filter fun l => !l.metal).map fun l => asc l.name := by
  have := congrArg (fun t => (t.filter fun (q : String × ℚ × Bool) => !q.2.2).map fun (q : String × ℚ × Bool) => asc q.1) (stack_eq (part := part) a (tiles size a).1 (tiles size a).2 (totalThick (gridModel part a (tiles size a).1 (tiles size a).2).layers * 1000000) h.thick)
  unfold full chipOf
  dsimp only
  rw [List.map_map, List.map_map]
  simp only [List.filter_map, List.map_map] at this
  exact this

theorem tok_orNone {t : Bytes} (h : t = [] ∨ Tok t ∧ t.length ≤ 20) : Tok (orNone t) ∧ (orNone t).length ≤ 20 := by
  rcases h with rfl | h
  · exact ⟨⟨by decide, by decide⟩, by decide⟩
  · unfold orNone
    rw [if_neg (by intro h0; exact h.1.1 (by simpa using h0))]
    exact h

theorem writes_writable {a : Input S} (h : Writes size rnd a) (hw : ∀ l ∈ a.layers, Word l) :
    Writable rnd (plain (full (gridModel part a (tiles size a).1 (tiles size a).2) (chipOf part a (tiles size a))).header) := by
  have hlay := header_layers (part := part) h
  have htech := header_tech (part := part) h
  have hsum := thick_sum (part := part) a (tiles size a).1 (tiles size a).2 h.thick
  have hgrid := grid_get (part := part) a (tiles size a).1 (tiles size a).2 h.thick
  have hthick : ∀ g ∈ (gridModel part a (tiles size a).1 (tiles size a).2).layers, 0 ≤ g.thick := by
    intro g hg
    obtain ⟨l, hl, -, -, e, -⟩ := hgrid g hg
    rw [e]
    exact h.thick l hl
  have hname : ∀ s, (s = "" ∨ ∃ l' ∈ a.layers, s = l'.name) → asc s = [] ∨ Tok (asc s) ∧ (asc s).length ≤ 20 := by
    rintro s (rfl | ⟨l, hl, rfl⟩)
    · exact .inl rfl
    · exact .inr ⟨(hw l hl).1, (hw l hl).2.1⟩
  have hhead : (plain (full (gridModel part a (tiles size a).1 (tiles size a).2) (chipOf part a (tiles size a))).header).head = 35 :: defaultHead := rfl
  refine ⟨by rw [hhead]; decide, by rw [hhead]; decide, fun _ => by rw [hhead]; decide, rfl, le_refl _, ⟨h.x.2, h.y.2⟩, ?_, ?_, ?_, ?_, ?_⟩
  · intro l hl
    rw [show (plain (full (gridModel part a (tiles size a).1 (tiles size a).2) (chipOf part a (tiles size a))).header).layers = _ from hlay] at hl
    obtain ⟨l', hl', rfl⟩ := List.mem_map.1 hl
    exact ⟨(hw l' hl').1, fun hh => by cases hh⟩
  · intro t ht
    rw [show (plain (full (gridModel part a (tiles size a).1 (tiles size a).2) (chipOf part a (tiles size a))).header).tech = _ from htech] at ht
    obtain ⟨l', hl', rfl⟩ := List.mem_map.1 ht
    exact (hw l' hl').1
  · intro m hm
    change m ∈ List.map _ (List.map Prod.fst (List.filter _ (stackOf _ _))) at hm
    rw [List.map_map] at hm
    obtain ⟨p, hp, rfl⟩ := List.mem_map.1 hm
    have hp := (List.mem_filter.1 hp).1
    obtain ⟨l, hl, e1, -⟩ := hgrid p.2 (stackOf_mem2 _ _ hp)
    obtain ⟨b1, b2, b3⟩ := elev_bounds _ _ hthick p hp
    obtain ⟨n1, n2⟩ := stackOf_mem _ _ p hp
    rw [totalThick_eq, hsum] at b1 b2
    rw [hsum] at b3
    have hpos : 0 ≤ p.1.thick := by
      rw [n2]
      have := hthick p.2 (stackOf_mem2 _ _ hp)
      positivity
    obtain ⟨w1, w2, w3⟩ := hw l hl
    rw [← e1, ← n1] at w1 w2 w3
    exact ⟨w1, w2, w3, (fun hh => by cases hh), (fun hh => by cases hh), h.short _ hpos b3, h.short _ (show (0 : ℚ) ≤ p.1.elev by linarith) b1⟩
  · intro v hv
    change v ∈ List.map _ (List.map _ (List.map _ (List.filter _ (stackOf _ _)))) at hv
    rw [List.map_map, List.map_map] at hv
    obtain ⟨p, hp, rfl⟩ := List.mem_map.1 hv
    have hp := (List.mem_filter.1 hp).1
    obtain ⟨l, hl, e1, -, -, e4, e5⟩ := hgrid p.2 (stackOf_mem2 _ _ hp)
    obtain ⟨n1, n2⟩ := stackOf_mem _ _ p hp
    obtain ⟨w1, w2, w3⟩ := hw l hl
    rw [← e1, ← n1] at w1 w2 w3
    obtain ⟨t1, t2⟩ := tok_orNone (hname _ e4)
    obtain ⟨t3, t4⟩ := tok_orNone (hname _ e5)
    exact ⟨w1, w2, w3, t3, t4, t1, t2⟩
  · rw [show (plain (full (gridModel part a (tiles size a).1 (tiles size a).2) (chipOf part a (tiles size a))).header).layers = _ from hlay,
      show (plain (full (gridModel part a (tiles size a).1 (tiles size a).2) (chipOf part a (tiles size a))).header).tech = _ from htech, List.length_map, List.length_map]
    exact ⟨h.few, h.few⟩

theorem cellPower_empty (ls : List (GLay ℚ Empty)) (t : ℚ) : cellPower (fun (p : Empty) _ _ _ => p.elim) ls t = fun _ _ => 0 := by
  funext x y
  unfold cellPower
  have : ∀ (l : GLay ℚ Empty), l.powers = [] := fun l => match l.powers with
    | [] => rfl
    | p :: _ => (show Empty from p).elim
  simp [this]

theorem gridData_get (f : Frac ℚ) {p : Nat × Nat} (hp : p ∈ order f.w f.h) : (gridData f).get (fun _ h x y => x * h + y) p = f.val p.1 p.2 := by
  rw [order_mem] at hp
  unfold Grid2.get gridData
  simp [List.getD, order_get f.w f.h p.1 p.2 hp.1 hp.2]

/-- what is written of powers and densities -/
theorem full_ok {a : Input S} (h : Writes size rnd a) : ∃ D : Bytes → Grid2 ℚ,
    chip size part a = .ok (some (chipOf part a (tiles size a))) ∧
    (full (gridModel part a (tiles size a).1 (tiles size a).2) (chipOf part a (tiles size a))).powers =
      some ([25, 50, 75, 100, 125].map fun t => (t, ⟨(tiles size a).1, (tiles size a).2, List.replicate ((tiles size a).1 * (tiles size a).2) 0⟩)) ∧
    ∀ l ∈ a.layers, UMap.find? (full (gridModel part a (tiles size a).1 (tiles size a).2) (chipOf part a (tiles size a))).densities (asc l.name) = some (some (D (asc l.name))) ∧
      (D (asc l.name)).w = (tiles size a).1 ∧ (D (asc l.name)).h = (tiles size a).2 ∧ (D (asc l.name)).cells.length = (tiles size a).1 * (tiles size a).2 ∧
      ∀ p ∈ order (tiles size a).1 (tiles size a).2, (D (asc l.name)).get (fun _ h x y => x * h + y) p =
        metal part a.nets a.prims l.id (tile (a.x.axis a.units (tiles size a).1) (a.y.axis a.units (tiles size a).2) p.1 p.2) := by
  obtain ⟨c, hc, -, -, -, -, -, hden⟩ := c103_layers (size := size) part a h.x.1 h.y.1 h.names h.thick h.res
  have hce := chip_eq (part := part) h
  rw [hc] at hce
  have hce : c = chipOf part a (tiles size a) := by injection hce with hce; injection hce
  subst hce
  haveI : Inhabited (Frac ℚ) := ⟨⟨0, 0, fun _ _ => 0⟩⟩
  choose! F hF using hden
  have hD : ∀ l ∈ a.layers, UMap.find? ((chipOf part a (tiles size a)).densities.map fun e => (asc e.1, some (gridData e.2))) (asc l.name) = some (some (gridData (F l))) := by
    intro l hl
    rw [find_densities, (hF l hl).1]
    rfl
  refine ⟨fun b => ((UMap.find? ((chipOf part a (tiles size a)).densities.map fun e => (asc e.1, some (gridData e.2))) b).getD none).getD (gridData ⟨0, 0, fun _ _ => 0⟩), hc, ?_, ?_⟩
  · simp only [full, chipOf, cellPower_empty, gridData]
    simp [order_length]
  · intro l hl
    have h1 : (F l).w = (tiles size a).1 := congrArg Prod.fst (hF l hl).2.1
    have h2 : (F l).h = (tiles size a).2 := congrArg Prod.snd (hF l hl).2.1
    beta_reduce
    rw [hD l hl]
    refine ⟨hD l hl, ?_⟩
    refine ⟨h1, h2, ?_, ?_⟩
    · rw [← h1, ← h2, ← order_length]
      exact List.length_map _
    · intro p hp
      exact (gridData_get (F l) (by rw [h1, h2]; exact hp)).trans ((hF l hl).2.2 _ _)

theorem package_eq {a : Input S} (hc : chip size part a = .ok (some (chipOf part a (tiles size a)))) (f : Flt ℚ) (d : Dir) : package size part rnd f a d =
    generate rnd f (fun _ h x y => x * h + y) (full (gridModel part a (tiles size a).1 (tiles size a).2) (chipOf part a (tiles size a))) d := by
  unfold package
  rw [hc]
  rfl

/-- C155: of a layout whose layers have names of one word, files are written that are read again, and the model read says of the layout what was in it -/
theorem c155_read (hs : Blank sep) (f : Flt ℚ) {a : Input S} (h : Writes size rnd a) (hw : ∀ l ∈ a.layers, Word l) (d : Dir) :
    ∃ d' m table, package size part rnd f a d = .ok (d', true) ∧ make sep f d' = .ok (some m) ∧
      m.header.tiles = tiles size a ∧ m.header.resolution = r6 rnd (a.stride * a.units.precision * 1000000) ∧
      m.header.size = [r6 rnd 0, r6 rnd 0, r6 rnd ((tiles size a).1 * (a.stride * a.units.precision * 1000000)), r6 rnd ((tiles size a).2 * (a.stride * a.units.precision * 1000000))] ∧
      m.header.layers = (a.layers.map fun l => (asc l.name, r6 rnd (um a l))) ∧
      m.header.tech = (a.layers.map fun l => asc l.name) ∧
      (m.header.metals.map fun e => (e.1, e.2.1)) = ((a.layers.filter Layer.metal).map fun l => (asc l.name, r6 rnd (um a l))) ∧
      (m.header.vias.map fun v => v.1) = ((a.layers.filter fun l => !l.metal).map fun l => asc l.name) ∧
      m.powers = some table ∧
      (∀ t ∈ [25, 50, 75, 100, 125], UMap.find? table (r6 rnd t) = some ⟨(tiles size a).1, (tiles size a).2, List.replicate ((tiles size a).1 * (tiles size a).2) (f.narrow 0)⟩) ∧
      ∀ l ∈ a.layers, UMap.find? m.densities (asc l.name) = some (some ⟨(tiles size a).1, (tiles size a).2, (order (tiles size a).1 (tiles size a).2).map fun p =>
        f.narrow (metal part a.nets a.prims l.id (tile (a.x.axis a.units (tiles size a).1) (a.y.axis a.units (tiles size a).2) p.1 p.2))⟩) := by
  have hlay := header_layers (part := part) h
  have htech := header_tech (part := part) h
  have hmet := header_metals (part := part) h
  have hvia := header_vias (part := part) h
  have hread := read_default hs (rnd := rnd) rfl rfl (writes_writable (part := part) h hw)
  obtain ⟨D, hc, hMp, hD⟩ := full_ok (part := part) h
  have hpk := package_eq (rnd := rnd) hc f d
  generalize hm : full (gridModel part a (tiles size a).1 (tiles size a).2) (chipOf part a (tiles size a)) = M at *
  have hMt : M.header.tiles = tiles size a := by rw [← hm]; rfl
  have hMts : M.header.temps = [25, 50, 75, 100, 125] := by rw [← hm]; rfl
  have hMr : M.header.resolution = a.stride * a.units.precision * 1000000 := by rw [← hm]; rfl
  have hMsz : M.header.size = [0, 0, (tiles size a).1 * (a.stride * a.units.precision * 1000000), (tiles size a).2 * (a.stride * a.units.precision * 1000000)] := by rw [← hm]; rfl
  obtain ⟨d', m', table, g1, g2, g3, g4, g5, g6⟩ := package_read f (fun _ h x y => x * h + y) M
    (fun _ => ⟨(tiles size a).1, (tiles size a).2, List.replicate ((tiles size a).1 * (tiles size a).2) 0⟩) D hread (by rw [hMts]; decide)
    ⟨_, hMp, by
      rw [hMts]
      intro t ht
      simp only [List.mem_cons, List.not_mem_nil, or_false] at ht
      rcases ht with rfl | rfl | rfl | rfl | rfl <;> simp [UMap.find?]⟩
    (by rw [hlay]; intro h0; exact h.some (by simpa using h0))
    (by
      rw [hlay]
      intro e he
      obtain ⟨l, hl, rfl⟩ := List.mem_map.1 he
      exact (hD l hl).1)
    (by
      rw [hlay, hMt]
      intro e he
      obtain ⟨l, hl, rfl⟩ := List.mem_map.1 he
      exact ⟨(hD l hl).2.1, (hD l hl).2.2.1, (hD l hl).2.2.2.1⟩)
    (by
      rw [hMt]
      intro x y hx hy
      nlinarith) d
  refine ⟨d', m', table, hpk.trans g1, g2, by rw [g3]; exact hMt, by rw [g3]; exact congrArg (r6 rnd) hMr,
    by rw [g3]; exact congrArg (List.map (r6 rnd)) hMsz, ?_, ?_, ?_, ?_, g4, ?_, ?_⟩
  · rw [g3]
    change M.header.layers.map _ = _
    rw [hlay, List.map_map]
    rfl
  · rw [g3]
    exact htech
  · rw [g3]
    change (M.header.metals.map _).map _ = _
    have := congrArg (List.map fun (q : Bytes × ℚ) => (q.1, r6 rnd q.2)) hmet
    simp only [List.map_map] at this ⊢
    exact this
  · rw [g3]
    change (M.header.vias.map _).map _ = _
    rw [List.map_map]
    exact hvia
  · intro t ht
    obtain ⟨t0, -, e⟩ := g5 t (by rw [hMts]; exact ht)
    rw [e, hMt]
    simp
  · intro l hl
    have := g6 (asc l.name, um a l) (by rw [hlay]; exact List.mem_map.2 ⟨l, hl, rfl⟩)
    rw [this, hMt]
    congr 3
    refine List.map_congr_left fun p hp => ?_
    rw [(hD l hl).2.2.2.2 p hp]

/-- C155 fails for layers whose name is of several words, like `Top Layer`: the files are written without a complaint, but they cannot be read -/
theorem c155_words_refuted (hs : Blank sep) (f : Flt ℚ) {a : Input S} (h : Writes size rnd a) (hw : ∀ l ∈ a.layers, ∃ ws, Words (asc l.name) ws)
    (hb : ∃ l ∈ a.layers, ∀ ws, Words (asc l.name) ws → 2 ≤ ws.length) (d : Dir) :
    ∃ d', package size part rnd f a d = .ok (d', true) ∧ make sep f d' = .ok none := by
  have hlay := header_layers (part := part) h
  obtain ⟨D, hc, hMp, hD⟩ := full_ok (part := part) h
  have hpk := package_eq (rnd := rnd) hc f d
  have hread := read_words (rnd := rnd) hs (h := (full (gridModel part a (tiles size a).1 (tiles size a).2) (chipOf part a (tiles size a))).header) rfl rfl
    (by rw [hlay, List.length_map]; exact h.few)
    (by
      rw [hlay]
      intro e he
      obtain ⟨l, hl, rfl⟩ := List.mem_map.1 he
      exact hw l hl)
    (by
      rw [hlay]
      obtain ⟨l, hl, hb⟩ := hb
      exact ⟨_, List.mem_map.2 ⟨l, hl, rfl⟩, hb⟩)
  generalize hm : full (gridModel part a (tiles size a).1 (tiles size a).2) (chipOf part a (tiles size a)) = M at *
  have hMt : M.header.tiles = tiles size a := by rw [← hm]; rfl
  have hMts : M.header.temps = [25, 50, 75, 100, 125] := by rw [← hm]; rfl
  obtain ⟨d', g1, g2⟩ := package_written (rnd := rnd) f (fun _ h x y => x * h + y) M
    (fun _ => ⟨(tiles size a).1, (tiles size a).2, List.replicate ((tiles size a).1 * (tiles size a).2) 0⟩) D (by rw [hMts]; decide)
    ⟨_, hMp, by
      rw [hMts]
      intro t ht
      simp only [List.mem_cons, List.not_mem_nil, or_false] at ht
      rcases ht with rfl | rfl | rfl | rfl | rfl <;> simp [UMap.find?]⟩
    (by rw [hlay]; intro h0; exact h.some (by simpa using h0))
    (by
      rw [hlay]
      intro e he
      obtain ⟨l, hl, rfl⟩ := List.mem_map.1 he
      exact (hD l hl).1)
    (by
      rw [hlay, hMt]
      intro e he
      obtain ⟨l, hl, rfl⟩ := List.mem_map.1 he
      exact ⟨(hD l hl).2.1, (hD l hl).2.2.1, (hD l hl).2.2.2.1⟩)
    (by
      rw [hMt]
      intro x y hx hy
      nlinarith) d
  refine ⟨d', hpk.trans g1, ?_⟩
  unfold Ctm.make
  rw [g2]
  dsimp only
  rw [hread]
  rfl

theorem densitiesOf_keys {P : Type} (ls : List (GLay ℚ P)) : ((densitiesOf ls).map Prod.fst).Nodup ∧ ∀ d ∈ densitiesOf ls, d.1 ∈ ls.map GLay.name := by
  have key : ∀ (ls : List (GLay ℚ P)) (ns : List String) (ds : List (String × Frac ℚ)), (ds.map Prod.fst).Nodup → (∀ d ∈ ds, d.1 ∈ ns) →
      ((ls.foldl (fun ds l => match l.mf with | none => ds | some m => if (densityOf ds l.name).isSome then ds else ds ++ [(l.name, m)]) ds).map Prod.fst).Nodup ∧
      ∀ d ∈ ls.foldl (fun ds l => match l.mf with | none => ds | some m => if (densityOf ds l.name).isSome then ds else ds ++ [(l.name, m)]) ds, d.1 ∈ ns ++ ls.map GLay.name := by
    intro ls
    induction ls with
    | nil => intro ns ds h1 h2; exact ⟨h1, fun d hd => by simpa using h2 d hd⟩
    | cons l ls ih =>
      intro ns ds h1 h2
      have := ih (ns ++ [l.name]) (match l.mf with | none => ds | some m => if (densityOf ds l.name).isSome then ds else ds ++ [(l.name, m)]) ?_ ?_
      · simpa using this
      · cases l.mf with
        | none => exact h1
        | some m =>
          dsimp only
          by_cases hs : (densityOf ds l.name).isSome
          · rwa [if_pos hs]
          · rw [if_neg hs, List.map_append, List.nodup_append]
            refine ⟨h1, by simp, ?_⟩
            intro x hx y hy
            simp only [List.map_cons, List.map_nil, List.mem_singleton] at hy
            subst hy
            rintro rfl
            obtain ⟨d, hd, he⟩ := List.mem_map.1 hx
            apply hs
            unfold densityOf
            rw [Option.isSome_map, List.find?_isSome]
            exact ⟨d, hd, by simpa using he⟩
      · intro d hd
        cases hm : l.mf with
        | none =>
          rw [hm] at hd
          exact List.mem_append_left _ (h2 d hd)
        | some m =>
          rw [hm] at hd
          dsimp only at hd
          split at hd
          · exact List.mem_append_left _ (h2 d hd)
          · rcases List.mem_append.1 hd with hd | hd
            · exact List.mem_append_left _ (h2 d hd)
            · rw [List.mem_singleton] at hd
              subst hd
              simp
  have e : densitiesOf ls = ls.foldl (fun ds l => match l.mf with | none => ds | some m => if (densityOf ds l.name).isSome then ds else ds ++ [(l.name, m)]) [] := by
    unfold densitiesOf
    congr 1
    funext ds l
    cases l.mf <;> rfl
  rw [e]
  exact key ls [] [] (by simp) (by simp)

/-- C155: of a layout in which two stackup layers have the same name nothing is written, and this is reported -/
theorem c155_twice (f : Flt ℚ) {a : Input S} (hx : (tiles size a).1 ≠ 0) (hy : (tiles size a).2 ≠ 0) (ht : ∀ l ∈ a.layers, 0 ≤ l.thick * a.units.precision)
    (hn : ¬ (a.layers.map Layer.name).Nodup) (d : Dir) : package size part rnd f a d = .ok (d, false) := by
  have hc : chip size part a = .ok none := by
    unfold chip
    change (if (tiles size a).1 = 0 ∨ (tiles size a).2 = 0 then _ else Res.ok (toChip _ (gridModel part a (tiles size a).1 (tiles size a).2))) = _
    rw [if_neg (by simp [hx, hy])]
    have hnames := grid_names part a (tiles size a).1 (tiles size a).2 ht
    generalize gridModel part a (tiles size a).1 (tiles size a).2 = G at *
    congr 1
    unfold toChip
    split
    · rfl
    · dsimp only
      rw [if_pos]
      intro hlen
      apply hn
      rw [← hnames]
      obtain ⟨k1, k2⟩ := densitiesOf_keys G.layers
      have hsub : (densitiesOf G.layers).map Prod.fst ⊆ G.layers.map GLay.name := by
        intro x hx
        obtain ⟨d, hd, rfl⟩ := List.mem_map.1 hx
        exact k2 d hd
      have hsp := (k1.subperm hsub).perm_of_length_le (by
        rw [List.length_map, List.length_map, hlen, ← List.length_map (f := Prod.snd), stackOf_snd])
      exact hsp.nodup_iff.1 k1
  unfold package
  rw [hc]
  rfl

/-- C155: numbers come back up to a millionth -/
theorem c155_close {a : Input S} (h : Writes size rnd a) (x : ℚ) : |r6 rnd x - x| ≤ 1 / 1000000 := by
  have := h.near (x * 1000000)
  unfold r6
  rw [show (rnd (x * 1000000) : ℚ) / 1000000 - x = (rnd (x * 1000000) - x * 1000000) / 1000000 by ring, abs_div, abs_of_pos (by norm_num : (0 : ℚ) < 1000000)]
  exact div_le_div_of_nonneg_right this (by norm_num)

/-! ### examples -/

theorem exWrites : Writes ceilSize Int.floor (exIn 2000 1000) where
  x := by decide +kernel
  y := by decide +kernel
  some := by decide
  few := by decide
  names := by decide
  thick := by decide +kernel
  res := by decide +kernel
  near x := by
    have h1 := Int.floor_le x
    have h2 := Int.lt_floor_add_one x
    rw [abs_le]
    constructor <;> linarith
  thin := by decide +kernel

/-- the hypotheses of `c155_read`, and what comes back: a metal layer with its densities, and no layer above the via -/
example : (∀ l ∈ (exIn 2000 1000).layers, Word l) ∧
    (match package ceilSize boxPart Int.floor exFlt (exIn 2000 1000) [] with
    | .ok (d, true) => (match Ctm.make (fun c => c = 32) exFlt d with
      | .ok (some m) => decide (m.header.tiles = (2, 1) ∧ m.header.resolution = 1 ∧ (m.header.metals.map fun e => e.2.1) = [3 / 1000] ∧ m.header.vias = [(asc "V1", asc "None", asc "M1")])
      | _ => false)
    | _ => false) = true := by
  constructor
  · intro l hl
    simp only [exIn, List.mem_cons, List.not_mem_nil, or_false] at hl
    rcases hl with rfl | rfl <;> exact ⟨⟨by decide, by decide⟩, by decide, by decide⟩
  · decide +kernel

/-- the hypotheses of `c155_twice` -/
example : package ceilSize boxPart Int.floor exFlt { exIn 2000 1000 with layers := (exIn 2000 1000).layers ++ (exIn 2000 1000).layers } [] = .ok ([], false) :=
  c155_twice exFlt (by decide +kernel) (by decide +kernel) (by decide +kernel) (by decide) []

/-- the hypotheses of `c155_words_refuted` -/
example : Words (asc "Top Layer") [asc "Top", asc "Layer"] ∧ ∀ ws, Words (asc "Top Layer") ws → 2 ≤ ws.length := by
  refine ⟨⟨by decide, ?_, by decide⟩, ?_⟩
  · intro w hw
    simp only [List.mem_cons, List.not_mem_nil, or_false] at hw
    rcases hw with rfl | rfl <;> exact ⟨by decide, by decide⟩
  · rintro ws ⟨h1, h2, h3⟩
    match ws, h1 with
    | [w], _ =>
      have := (h2 w (by simp)).2 32
      have e : w = asc "Top Layer" := by
        have : sp [w] = 32 :: w := by simp [sp]
        rw [this] at h3
        exact List.cons.inj h3 |>.2
      rw [e] at this
      exact absurd (this (by decide)) (by decide)
    | _ :: _ :: _, _ => simp

end Ecad.L2C
