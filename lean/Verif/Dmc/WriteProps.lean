import Verif.Dmc.WriteModel
import Verif.Dmc.FileProps
import Verif.Dmc.Props
import Mathlib.Tactic.FieldSimp
import Mathlib.Tactic.Ring
import Mathlib.Algebra.Order.Floor.Ring
import Mathlib.Data.Rat.Floor
/-!
C113: DMC and DOM files written from merged polygons give the polygons again when they are imported.
-/
namespace Ecad.Dmc
open Ctm (Bytes isDig isSpace digitsVal digs pad6 fmtMicro fmt fileLines)

/-! ## texts of numbers -/

theorem digits_text {t : Bytes} (h : ∀ c ∈ t, isDig c = true) : ∃ a, (∀ d ∈ a, d < 10) ∧ dtext a = t ∧ dval a = digitsVal t := by
  have e : dtext (t.map (· - 48)) = t := by
    unfold dtext
    rw [List.map_map]
    conv_rhs => rw [← List.map_id t]
    refine List.map_congr_left fun c hc => ?_
    have := h c hc
    simp only [isDig, Bool.and_eq_true, decide_eq_true_eq] at this
    simp only [Function.comp, id]
    omega
  refine ⟨t.map (· - 48), ?_, e, ?_⟩
  · intro d hd
    obtain ⟨c, hc, rfl⟩ := List.mem_map.1 hd
    have := h c hc
    simp only [isDig, Bool.and_eq_true, decide_eq_true_eq] at this
    omega
  · rw [← digitsVal_dtext, e]

theorem digs_text (n : Nat) : ∃ a, a ≠ [] ∧ (∀ d ∈ a, d < 10) ∧ digs n = dtext a ∧ dval a = n := by
  obtain ⟨a, h1, h2, h3⟩ := digits_text (Ctm.digs_dig n)
  refine ⟨a, ?_, h1, h2.symm, by rw [h3, Ctm.digitsVal_digs]⟩
  rintro rfl
  exact Ctm.digs_ne n h2.symm

theorem isInt_fmtInt (i : Int) : IsInt (fmtInt i) i := by
  obtain ⟨a, h0, h1, h2, h3⟩ := digs_text i.natAbs
  unfold fmtInt
  by_cases hi : i < 0
  · rw [if_pos hi]
    exact ⟨[45], -1, a, .inr (.inr ⟨rfl, rfl⟩), h0, h1, by rw [h2], by rw [h3]; omega⟩
  · rw [if_neg hi]
    exact ⟨[], 1, a, .inl ⟨rfl, rfl⟩, h0, h1, by rw [h2], by rw [h3]; omega⟩

theorem isDec_fmtMicro (k : Int) : IsDec (fmtMicro k) ((k : ℚ) / 1000000) := by
  obtain ⟨a, h0, h1, h2, h3⟩ := digs_text (k.natAbs / 1000000)
  obtain ⟨b, g1, g2, g3⟩ := digits_text (Ctm.pad6_dig (k.natAbs % 1000000))
  rw [Ctm.digitsVal_pad6 _ (Nat.mod_lt _ (by norm_num))] at g3
  have hb : b.length = 6 := by
    have : (dtext b).length = 6 := by rw [g2]; rfl
    simpa [dtext] using this
  have hn : ((k.natAbs : Nat) : ℚ) / 1000000 = ((k.natAbs / 1000000 : Nat) : ℚ) + ((k.natAbs % 1000000 : Nat) : ℚ) / 10 ^ 6 := by
    have := Nat.div_add_mod k.natAbs 1000000
    have hq : ((1000000 * (k.natAbs / 1000000) + k.natAbs % 1000000 : Nat) : ℚ) = (k.natAbs : ℚ) := by rw [this]
    rw [← hq]
    push_cast
    ring
  unfold fmtMicro
  by_cases hk : k < 0
  · rw [if_pos hk]
    refine ⟨[45], -1, a, b, true, .inr (.inr ⟨rfl, rfl⟩), .inl h0, h1, g1, by simp, by simp [h2, g2], ?_⟩
    rw [h3, g3, hb, ← hn]
    have : (k : ℚ) = -(k.natAbs : ℚ) := by
      have : k = -(k.natAbs : Int) := by omega
      exact_mod_cast this
    rw [this]
    push_cast
    ring
  · rw [if_neg hk]
    refine ⟨[], 1, a, b, true, .inl ⟨rfl, rfl⟩, .inl h0, h1, g1, by simp, by simp [h2, g2], ?_⟩
    rw [h3, g3, hb, ← hn]
    have : (k : ℚ) = (k.natAbs : ℚ) := by
      have h : ((k.natAbs : Int) : ℚ) = (k : ℚ) := congrArg _ (by omega)
      rw [← h]
      rfl
    rw [this]
    push_cast
    ring

/-! ## words of a line -/

theorem words_blank {b l : Bytes} {ts : List Bytes} (hb : ∀ c ∈ b, isSpace c = true) (h : Words l ts) : Words (b ++ l) ts := by
  cases h with
  | nil hb' => exact .nil fun c hc => by rcases List.mem_append.1 hc with hc | hc; exacts [hb c hc, hb' c hc]
  | cons hb' hne ht hr h =>
    rw [← List.append_assoc]
    exact .cons (fun c hc => by rcases List.mem_append.1 hc with hc | hc; exacts [hb c hc, hb' c hc]) hne ht hr h

theorem words_append {a b : Bytes} {ts us : List Bytes} (ha : Words a ts) (hb : Words b us) : Words (a ++ 32 :: b) (ts ++ us) := by
  induction ha with
  | nil h =>
    rename_i a
    have e : a ++ 32 :: b = (a ++ [32]) ++ b := by simp
    rw [e, List.nil_append]
    refine words_blank (fun c hc => ?_) hb
    rcases List.mem_append.1 hc with hc | hc
    · exact h c hc
    · rw [List.mem_singleton] at hc
      subst hc
      rfl
  | cons hb' hne ht hr h ih =>
    rename_i b' t r ts
    have e : (b' ++ (t ++ r)) ++ 32 :: b = b' ++ (t ++ (r ++ 32 :: b)) := by rw [List.append_assoc, List.append_assoc]
    rw [e, List.cons_append]
    refine .cons hb' hne ht (fun c hc => ?_) ih
    cases r with
    | nil =>
      have e : c = 32 := by simpa using hc.symm
      subst e
      rfl
    | cons x r => exact hr c (by simpa using hc)

theorem words_join {ws : List Bytes} {tss : List (List Bytes)} (h : List.Forall₂ Words ws tss) : Words (joinSp ws) tss.flatten := by
  induction h with
  | nil => exact .nil fun c hc => by cases hc
  | cons h hs ih =>
    rename_i w ts ws tss
    cases hs with
    | nil =>
      rw [joinSp, List.flatten_cons, List.flatten_nil, List.append_nil]
      exact h
    | cons h' hs' =>
      rw [joinSp, List.flatten_cons]
      · exact words_append h ih
      · intro h; cases h

/-- a word: not empty and without blanks -/
def IsWord (t : Bytes) : Prop := t ≠ [] ∧ ∀ c ∈ t, isSpace c = false

theorem words_word {t : Bytes} (h : IsWord t) : Words t [t] := by
  have : Words ([] ++ (t ++ [])) [t] := .cons (by simp) h.1 h.2 (by simp) (.nil (by simp))
  simpa using this

theorem isWord_sign {s : Bytes} {e : Int} (h : Signed s e) : ∀ c ∈ s, isSpace c = false := by
  rcases h with ⟨rfl, _⟩ | ⟨rfl, _⟩ | ⟨rfl, _⟩ <;> simp [isSpace]

theorem dtext_space {a : List Nat} : ∀ c ∈ dtext a, isSpace c = false := by
  intro c hc
  obtain ⟨d, _, rfl⟩ := List.mem_map.1 hc
  exact Ctm.isSpace_of (by omega)

theorem isWord_int {t : Bytes} {i : Int} (h : IsInt t i) : IsWord t := by
  obtain ⟨s, e, a, hs, hne, ha, rfl, rfl⟩ := h
  refine ⟨by simp [dtext_ne hne], fun c hc => ?_⟩
  rcases List.mem_append.1 hc with hc | hc
  · exact isWord_sign hs c hc
  · exact dtext_space c hc

theorem isWord_dec {t : Bytes} {q : ℚ} (h : IsDec t q) : IsWord t := by
  obtain ⟨s, e, a, b, p, hs, hne, ha, hb, hp, rfl, rfl⟩ := h
  constructor
  · intro h
    rw [List.append_eq_nil_iff, List.append_eq_nil_iff] at h
    rcases hne with hne | hne
    · exact dtext_ne hne h.2.1
    · cases p with
      | false => exact hne (hp rfl)
      | true => simp at h
  · intro c hc
    rcases List.mem_append.1 hc with hc | hc
    · exact isWord_sign hs c hc
    · rcases List.mem_append.1 hc with hc | hc
      · exact dtext_space c hc
      · cases p with
        | false => simp at hc
        | true =>
          rcases List.mem_cons.1 hc with rfl | hc
          · rfl
          · exact dtext_space c hc

theorem isWord_digs (n : Nat) : IsWord (digs n) :=
  ⟨Ctm.digs_ne n, fun c hc => by
    have := Ctm.digs_dig n c hc
    simp only [isDig, Bool.and_eq_true, decide_eq_true_eq] at this
    exact Ctm.isSpace_of (by omega)⟩

theorem word_lf {t : Bytes} (h : IsWord t) : 10 ∉ t := fun h' => by
  have := h.2 10 h'
  simp [isSpace] at this

/-! ## coordinates -/

/-- The units of the layout: a unit has `K` coordinates, and six digits after the point are enough to tell them apart. -/
structure Units (rnd : ℚ → Int) (K : Nat) : Prop where
  dvd : K ∣ 1000000
  exact : ∀ n : Int, rnd (n : ℚ) = n

/-- coordinates of 64 bits -/
def Int64Ok (c : Int) : Prop := -2 ^ 63 ≤ c ∧ c < 2 ^ 63

variable {rnd : ℚ → Int} {K : Nat}

theorem Units.pos (h : Units rnd K) : 0 < K := Nat.pos_of_dvd_of_pos h.dvd (by norm_num)

theorem coord_text (h : Units rnd K) (c : Int) : IsDec (coord rnd (1 / (K : ℚ)) c) ((c : ℚ) / K) := by
  obtain ⟨m, hm⟩ := h.dvd
  have hK : (K : ℚ) ≠ 0 := by exact_mod_cast h.pos.ne'
  have hmq : (1000000 : ℚ) = K * m := by exact_mod_cast hm
  have e : (c : ℚ) * (1 / (K : ℚ)) * 1000000 = ((c * m : Int) : ℚ) := by
    rw [hmq]
    push_cast
    field_simp
  unfold coord fmt
  rw [e, h.exact]
  have := isDec_fmtMicro (c * m)
  have e2 : ((c * m : Int) : ℚ) / 1000000 = (c : ℚ) / K := by
    have hm0 : (m : ℚ) ≠ 0 := by
      intro h0
      rw [h0, mul_zero] at hmq
      norm_num at hmq
    rw [hmq]
    push_cast
    field_simp
  rw [e2] at this
  exact this

theorem coord_cut (h : Units rnd K) {c : Int} (hc : Int64Ok c) : IsCut ((c : ℚ) / K * (K : ℚ)) c := by
  have hK : (K : ℚ) ≠ 0 := by exact_mod_cast h.pos.ne'
  rw [div_mul_cancel₀ _ hK]
  exact ⟨fun _ => ⟨le_refl _, by linarith⟩, fun _ => ⟨le_refl _, by linarith⟩, hc⟩

theorem lo_mem (f : Int × Int → Int) : ∀ p : List (Int × Int), p ≠ [] → ∃ q ∈ p, lo f p = f q
  | [], h => absurd rfl h
  | [q], _ => ⟨q, by simp, rfl⟩
  | q :: r :: ps, _ => by
    obtain ⟨x, hx, e⟩ := lo_mem f (r :: ps) (by simp)
    rw [lo, e]
    · rcases le_total (f q) (f x) with h | h
      · exact ⟨q, by simp, min_eq_left h⟩
      · exact ⟨x, List.mem_cons_of_mem _ hx, min_eq_right h⟩
    · simp

theorem hi_mem (f : Int × Int → Int) : ∀ p : List (Int × Int), p ≠ [] → ∃ q ∈ p, hi f p = f q
  | [], h => absurd rfl h
  | [q], _ => ⟨q, by simp, rfl⟩
  | q :: r :: ps, _ => by
    obtain ⟨x, hx, e⟩ := hi_mem f (r :: ps) (by simp)
    rw [hi, e]
    · rcases le_total (f q) (f x) with h | h
      · exact ⟨x, List.mem_cons_of_mem _ hx, max_eq_right h⟩
      · exact ⟨q, by simp, max_eq_left h⟩
    · simp

/-! ## one polygon -/

/-- polygons that can be written: points with coordinates of 64 bits, not more of them than 64 bits can count -/
def PolyOk (p : List (Int × Int)) : Prop := p ≠ [] ∧ p.length < 2 ^ 64 ∧ ∀ q ∈ p, Int64Ok q.1 ∧ Int64Ok q.2

/-- the record of a polygon -/
def recOf (lyrId : Int) (lyrName : Bytes) (netId : Int) (netName : Bytes) (p : List (Int × Int)) (isHole : Bool) : FRec :=
  ⟨false, isHole, some netId, some lyrId, some lyrId, none, some p.length, (lo Prod.fst p, lo Prod.snd p, hi Prod.fst p, hi Prod.snd p), netName, lyrName⟩

theorem poly_line (h : Units rnd K) {lyrId netId : Int} (hl : Int32Ok lyrId) (hn : Int32Ok netId) {lyrName netName : Bytes} (hln : IsWord lyrName)
    (hnn : IsWord netName) {p : List (Int × Int)} (hp : PolyOk p) (isHole : Bool) :
    SaysLine (K : ℚ) (writePoly rnd (1 / (K : ℚ)) lyrId lyrName netId netName p isHole).1 (recOf lyrId lyrName netId netName p isHole) ∧
      10 ∉ (writePoly rnd (1 / (K : ℚ)) lyrId lyrName netId netName p isHole).1 := by
  obtain ⟨hp0, hp1, hp2⟩ := hp
  obtain ⟨a, a0, a1, a2, a3⟩ := digs_text p.length
  obtain ⟨x1, m1, e1⟩ := lo_mem Prod.fst p hp0
  obtain ⟨x2, m2, e2⟩ := hi_mem Prod.fst p hp0
  obtain ⟨x3, m3, e3⟩ := lo_mem Prod.snd p hp0
  obtain ⟨x4, m4, e4⟩ := hi_mem Prod.snd p hp0
  have hw : ∀ w ∈ dmcWords rnd (1 / (K : ℚ)) lyrId lyrName netId netName p isHole, IsWord w := by
    intro w hw
    simp only [dmcWords, List.mem_cons, List.not_mem_nil, or_false] at hw
    rcases hw with rfl | rfl | rfl | rfl | rfl | rfl | rfl | rfl | rfl | rfl | rfl
    · exact isWord_digs _
    · exact isWord_int (isInt_fmtInt _)
    · exact isWord_int (isInt_fmtInt _)
    · exact isWord_dec (coord_text h _)
    · exact isWord_dec (coord_text h _)
    · exact isWord_dec (coord_text h _)
    · exact isWord_dec (coord_text h _)
    · exact isWord_int (isInt_fmtInt _)
    · exact hnn
    · exact isWord_int (isInt_fmtInt _)
    · exact hln
  have hwords : ∀ ws : List Bytes, (∀ w ∈ ws, IsWord w) → Words (joinSp ws) ws := by
    intro ws hws
    have : List.Forall₂ Words ws (ws.map fun w => [w]) := by
      induction ws with
      | nil => exact .nil
      | cons w ws ih => exact .cons (words_word (hws w (by simp))) (ih fun x hx => hws x (by simp [hx]))
    have h2 := words_join this
    have e : (ws.map fun w => [w]).flatten = ws := by
      clear hws this h2
      induction ws with
      | nil => rfl
      | cons w ws ih => rw [List.map_cons, List.flatten_cons, ih]; rfl
    rw [e] at h2
    exact h2
  have hlf : ∀ ws : List Bytes, (∀ w ∈ ws, IsWord w) → 10 ∉ joinSp ws := by
    intro ws hws
    induction ws with
    | nil => simp [joinSp]
    | cons w ws ih =>
      cases ws with
      | nil => rw [joinSp]; exact word_lf (hws w (by simp))
      | cons w' ws =>
        rw [joinSp]
        · intro hm
          rcases List.mem_append.1 hm with hm | hm
          · exact word_lf (hws w (by simp)) hm
          · rcases List.mem_cons.1 hm with hm | hm
            · omega
            · exact ih (fun x hx => hws x (List.mem_cons_of_mem _ hx)) hm
        · simp
  refine ⟨⟨⟨digs p.length, fmtInt (if isHole then 0 else 1), fmtInt lyrId, coord rnd (1 / (K : ℚ)) (lo Prod.fst p), coord rnd (1 / (K : ℚ)) (hi Prod.fst p),
    coord rnd (1 / (K : ℚ)) (lo Prod.snd p), coord rnd (1 / (K : ℚ)) (hi Prod.snd p), fmtInt netId, netName, fmtInt lyrId, lyrName⟩, [], ?_, ?_⟩, hlf _ hw⟩
  · rw [List.append_nil]
    exact hwords _ hw
  · refine ⟨p.length, if isHole then 0 else 1, lyrId, netId, _, _, _, _, lyrId,
      ⟨⟨a, a0, a1, a2, a3, hp1⟩, ⟨isInt_fmtInt _, ?_⟩, ⟨isInt_fmtInt _, hl⟩, coord_text h _, coord_text h _, coord_text h _, coord_text h _, ⟨isInt_fmtInt _, hn⟩⟩,
      .layer (isInt_fmtInt _) hl, rfl, ?_, rfl, rfl, rfl, ?_, ?_, ?_, ?_, rfl, rfl⟩
    · cases isHole <;> simp [Int32Ok]
    · cases isHole <;> simp [recOf]
    · exact coord_cut h (e1 ▸ (hp2 x1 m1).1)
    · exact coord_cut h (e3 ▸ (hp2 x3 m3).2)
    · exact coord_cut h (e2 ▸ (hp2 x2 m2).1)
    · exact coord_cut h (e4 ▸ (hp2 x4 m4).2)

theorem point_line (h : Units rnd K) {q : Int × Int} (h1 : Int64Ok q.1) (h2 : Int64Ok q.2) :
    SaysPoint (K : ℚ) (joinSp [coord rnd (1 / (K : ℚ)) q.1, coord rnd (1 / (K : ℚ)) q.2]) q ∧ 10 ∉ joinSp [coord rnd (1 / (K : ℚ)) q.1, coord rnd (1 / (K : ℚ)) q.2] := by
  have w1 := isWord_dec (coord_text h q.1)
  have w2 := isWord_dec (coord_text h q.2)
  constructor
  · refine ⟨_, _, [], _, _, words_join (.cons (words_word w1) (.cons (words_word w2) .nil)), coord_text h q.1, coord_text h q.2, coord_cut h h1, coord_cut h h2⟩
  · intro hm
    simp only [joinSp] at hm
    rcases List.mem_append.1 hm with hm | hm
    · exact word_lf w1 hm
    · rcases List.mem_cons.1 hm with hm | hm
      · omega
      · exact word_lf w2 hm

/-! ## files -/

theorem joinLines_eol (ls : List Bytes) : joinLines (ls ++ [[]]) = eol ls := by
  induction ls with
  | nil => rfl
  | cons l ls ih =>
    have e : joinLines (l :: (ls ++ [[]])) = l ++ 10 :: joinLines (ls ++ [[]]) := by
      cases ls <;> rfl
    rw [List.cons_append, e, ih]
    simp [eol]

theorem filter_lines {ls : List Bytes} (h : ∀ l ∈ ls, l ≠ []) : ((ls ++ [[]]).filter fun l => decide (l ≠ [])) = ls := by
  rw [List.filter_append, List.filter_eq_self.2 (fun l hl => by simpa using h l hl)]
  simp

theorem says_ne {scale : ℚ} {l : Bytes} {r : FRec} (h : SaysLine scale l r) : l ≠ [] := by
  rintro rfl
  obtain ⟨w, extra, hw, -⟩ := h
  generalize he : ([] : Bytes) = l at hw
  cases hw with
  | cons hb hne ht hr h => exact hne (by simpa using (List.append_eq_nil_iff.1 (List.append_eq_nil_iff.1 he.symm).2).1)

theorem point_ne {scale : ℚ} {l : Bytes} {p : Int × Int} (h : SaysPoint scale l p) : l ≠ [] := by
  rintro rfl
  obtain ⟨tx, ty, extra, x, y, hw, -⟩ := h
  generalize he : ([] : Bytes) = l at hw
  cases hw with
  | cons hb hne ht hr h => exact hne (by simpa using (List.append_eq_nil_iff.1 (List.append_eq_nil_iff.1 he.symm).2).1)

/-- a name of bytes as the import makes it -/
def str (n : Bytes) : String := String.ofList (n.map Char.ofNat)

theorem str_inj {a b : Bytes} (ha : ∀ c ∈ a, c < 256) (hb : ∀ c ∈ b, c < 256) (h : str a = str b) : a = b := by
  have h : a.map Char.ofNat = b.map Char.ofNat := String.ofList_injective h
  have hc : ∀ c : Nat, c < 256 → (Char.ofNat c).toNat = c := by decide +kernel
  have h2 := congrArg (List.map Char.toNat) h
  rw [List.map_map, List.map_map] at h2
  have e : ∀ l : Bytes, (∀ c ∈ l, c < 256) → l.map (Char.toNat ∘ Char.ofNat) = l := by
    intro l hl
    conv_rhs => rw [← List.map_id l]
    exact List.map_congr_left fun c h => hc c (hl c h)
  rwa [e a ha, e b hb] at h2

/-- names that can be written: one word of bytes -/
def NameOk (n : Bytes) : Prop := IsWord n ∧ ∀ c ∈ n, c < 256

/-- A polygon that can be written on layer `l`: it has a net, the layer is there, the names are one word each, the ids have 32 bits, the outline and the
holes have points with coordinates of 64 bits. -/
structure Good (lay : Lay) (l : Int) (pd : Poly) : Prop where
  net : ∃ n, UMap.find? lay.nets pd.net = some n ∧ NameOk n
  layer : ∃ n, UMap.find? lay.layers l = some n ∧ NameOk n
  netId : Int32Ok pd.net
  lyrId : Int32Ok l
  solid : PolyOk pd.solid
  holes : ∀ h ∈ pd.holes, PolyOk h

/-- the polygons with their layers, in the order in which they are gone through -/
def allPolys (ms : List (Int × List Poly)) : List (Int × Poly) := ms.flatMap fun m => m.2.map fun pd => (m.1, pd)

def netOf (lay : Lay) (x : Int × Poly) : Bytes := (UMap.find? lay.nets x.2.net).getD []

def lyrOf (lay : Lay) (x : Int × Poly) : Bytes := (UMap.find? lay.layers x.1).getD []

/-- the records written for a polygon -/
def recsOf (lay : Lay) (x : Int × Poly) : List FRec :=
  recOf x.1 (lyrOf lay x) x.2.net (netOf lay x) x.2.solid false :: x.2.holes.map fun h => recOf x.1 (lyrOf lay x) x.2.net (netOf lay x) h true

/-- the group read for a polygon -/
def groupOf (junk : Int) (lay : Lay) (x : Int × Poly) : Group (Int × Int) :=
  ⟨(recOf x.1 (lyrOf lay x) x.2.net (netOf lay x) x.2.solid false).toRec junk, x.2.solid,
    x.2.holes.map fun h => ((recOf x.1 (lyrOf lay x) x.2.net (netOf lay x) h true).toRec junk, h)⟩

theorem group_recs (junk : Int) (lay : Lay) (x : Int × Poly) : (recsOf lay x).map (FRec.toRec junk) = (groupOf junk lay x).recs := by
  simp [recsOf, groupOf, Group.recs, Function.comp_def]

theorem group_pts (junk : Int) (lay : Lay) (x : Int × Poly) : (groupOf junk lay x).pts = x.2.solid ++ x.2.holes.flatten := by
  simp only [groupOf, Group.pts, List.flatMap_map]
  congr 1
  induction x.2.holes with
  | nil => rfl
  | cons h hs ih => rw [List.flatMap_cons, ih, List.flatten_cons]

theorem group_fits (junk : Int) (lay : Lay) (x : Int × Poly) : (groupOf junk lay x).Fits := by
  refine ⟨rfl, rfl, ?_⟩
  intro h hh
  obtain ⟨q, _, rfl⟩ := List.mem_map.1 hh
  exact ⟨rfl, rfl⟩

theorem group_shape (junk : Int) (lay : Lay) (x : Int × Poly) : (groupOf junk lay x).shape = ⟨x.2.solid, x.2.holes⟩ := by
  simp [groupOf, Group.shape, Function.comp_def]

theorem write_all (rnd : ℚ → Int) (scale : ℚ) (lay : Lay) (ms : List (Int × List Poly)) :
    ms.flatMap (writeLayer rnd scale lay) = (allPolys ms).flatMap fun x => writeData rnd scale lay x.1 x.2 := by
  induction ms with
  | nil => rfl
  | cons m ms ih =>
    rw [List.flatMap_cons, ih]
    simp only [allPolys, List.flatMap_cons, List.flatMap_append, writeLayer, List.flatMap_map]

theorem points_says (h : Units rnd K) {p : List (Int × Int)} (hp : ∀ q ∈ p, Int64Ok q.1 ∧ Int64Ok q.2) :
    List.Forall₂ (SaysPoint (K : ℚ)) (p.map fun q => joinSp [coord rnd (1 / (K : ℚ)) q.1, coord rnd (1 / (K : ℚ)) q.2]) p := by
  induction p with
  | nil => exact .nil
  | cons q p ih => exact .cons (point_line h (hp q (by simp)).1 (hp q (by simp)).2).1 (ih fun x hx => hp x (by simp [hx]))

theorem forall₂_append {α β : Type} {R : α → β → Prop} {a c : List α} {b d : List β} (h : List.Forall₂ R a b) (h' : List.Forall₂ R c d) :
    List.Forall₂ R (a ++ c) (b ++ d) := by
  induction h with
  | nil => exact h'
  | cons h hs ih => exact .cons h ih

theorem data_says (h : Units rnd K) (lay : Lay) (x : Int × Poly) (hg : Good lay x.1 x.2) :
    List.Forall₂ (SaysLine (K : ℚ)) ((writeData rnd (1 / (K : ℚ)) lay x.1 x.2).map Prod.fst) (recsOf lay x) ∧
    List.Forall₂ (SaysPoint (K : ℚ)) ((writeData rnd (1 / (K : ℚ)) lay x.1 x.2).flatMap Prod.snd) (x.2.solid ++ x.2.holes.flatten) ∧
    (∀ l ∈ (writeData rnd (1 / (K : ℚ)) lay x.1 x.2).map Prod.fst, 10 ∉ l) ∧
    (∀ l ∈ (writeData rnd (1 / (K : ℚ)) lay x.1 x.2).flatMap Prod.snd, 10 ∉ l) := by
  obtain ⟨n, hn, hn'⟩ := hg.net
  obtain ⟨m, hm, hm'⟩ := hg.layer
  have e1 : netOf lay x = n := by simp [netOf, hn]
  have e2 : lyrOf lay x = m := by simp [lyrOf, hm]
  unfold writeData recsOf
  rw [hn, hm, e1, e2]
  dsimp only
  have hpts : ∀ p : List (Int × Int), (∀ q ∈ p, Int64Ok q.1 ∧ Int64Ok q.2) → ∀ l ∈ p.map fun q => joinSp [coord rnd (1 / (K : ℚ)) q.1, coord rnd (1 / (K : ℚ)) q.2], 10 ∉ l := by
    intro p hp l hl
    obtain ⟨q, hq, rfl⟩ := List.mem_map.1 hl
    exact (point_line h (hp q hq).1 (hp q hq).2).2
  have hh := hg.holes
  refine ⟨.cons (poly_line h hg.lyrId hg.netId hm'.1 hn'.1 hg.solid false).1 ?_, ?_, ?_, ?_⟩
  · generalize x.2.holes = hs at hh ⊢
    induction hs with
    | nil => exact .nil
    | cons q hs ih =>
      exact .cons (poly_line h hg.lyrId hg.netId hm'.1 hn'.1 (hh q (by simp)) true).1 (ih fun y hy => hh y (by simp [hy]))
  · rw [List.flatMap_cons]
    refine forall₂_append (points_says h hg.solid.2.2) ?_
    generalize x.2.holes = hs at hh ⊢
    induction hs with
    | nil => exact .nil
    | cons q hs ih =>
      rw [List.map_cons, List.flatMap_cons, List.flatten_cons]
      exact forall₂_append (points_says h (hh q (by simp)).2.2) (ih fun y hy => hh y (by simp [hy]))
  · intro l hl
    rw [List.map_cons, List.mem_cons, List.map_map] at hl
    rcases hl with rfl | hl
    · exact (poly_line h hg.lyrId hg.netId hm'.1 hn'.1 hg.solid false).2
    · obtain ⟨q, hq, rfl⟩ := List.mem_map.1 hl
      exact (poly_line h hg.lyrId hg.netId hm'.1 hn'.1 (hh q hq) true).2
  · intro l hl
    rw [List.flatMap_cons, List.mem_append] at hl
    rcases hl with hl | hl
    · exact hpts _ hg.solid.2.2 l hl
    · obtain ⟨y, hy, hl⟩ := List.mem_flatMap.1 hl
      obtain ⟨q, hq, rfl⟩ := List.mem_map.1 hy
      exact hpts _ (hh q hq).2.2 l hl

/-- **C113**, with what it needs: for units of `K` coordinates with `K` dividing a million (so six digits after the point tell coordinates apart), polygons
that all have a net and one-word names, and at least one of them, the files written give, when imported with the same units, exactly these
polygons in the order of writing, each on the net and the layer with the name it had, and two of them on the same net (layer) exactly if they were before.

Missing from the full claim (every layout gives itself again): polygons without a net, names that are empty or have blanks, other units; see the theorems
below. -/
theorem c113_roundtrip_partial (junk : Int) (h : Units rnd K) {lay : Lay} {ms : List (Int × List Poly)}
    (hinj : ∀ i j n, UMap.find? lay.nets i = some n → UMap.find? lay.nets j = some n → i = j)
    (hg : ∀ x ∈ allPolys ms, Good lay x.1 x.2) (hne : allPolys ms ≠ []) (hlen : (allPolys ms).length ≤ 2 ^ 32) :
    ∃ dom dmc s, writeFiles rnd (1 / (K : ℚ)) lay ms true true true = (some dom, some dmc, true) ∧
      load junk (K : ℚ) (some dom) (some dmc) = .ok (.ok (s, [])) ∧ s.geoms.length = (allPolys ms).length ∧
      (∀ (k : Nat) (l : Int) (pd : Poly), (allPolys ms)[k]? = some (l, pd) → ∃ x n m, s.geoms[k]? = some x ∧ x.shape = ⟨pd.solid, pd.holes⟩ ∧
        UMap.find? lay.nets pd.net = some n ∧ NetCalled s x.net (str n) ∧ UMap.find? lay.layers l = some m ∧ LayerCalled s x.layer (str m)) ∧
      (∀ (k j : Nat) (l m : Int) (pd qd : Poly) (x y : Geom (Int × Int)), (allPolys ms)[k]? = some (l, pd) → (allPolys ms)[j]? = some (m, qd) →
        s.geoms[k]? = some x → s.geoms[j]? = some y → (x.layer = y.layer ↔ l = m) ∧ (x.net = y.net ↔ pd.net = qd.net)) := by
  have hall := write_all rnd (1 / (K : ℚ)) lay ms
  generalize allPolys ms = ps at hg hne hlen hall ⊢
  have key : List.Forall₂ (SaysLine (K : ℚ)) ((ps.flatMap fun x => writeData rnd (1 / (K : ℚ)) lay x.1 x.2).map Prod.fst) (ps.flatMap (recsOf lay)) ∧
      List.Forall₂ (SaysPoint (K : ℚ)) ((ps.flatMap fun x => writeData rnd (1 / (K : ℚ)) lay x.1 x.2).flatMap Prod.snd) (ps.flatMap fun x => (groupOf junk lay x).pts) ∧
      (∀ l ∈ (ps.flatMap fun x => writeData rnd (1 / (K : ℚ)) lay x.1 x.2).map Prod.fst, 10 ∉ l) ∧
      (∀ l ∈ (ps.flatMap fun x => writeData rnd (1 / (K : ℚ)) lay x.1 x.2).flatMap Prod.snd, 10 ∉ l) := by
    clear hne hlen hall
    induction ps with
    | nil => exact ⟨.nil, .nil, by simp, by simp⟩
    | cons x ps ih =>
      obtain ⟨a1, a2, a3, a4⟩ := data_says h lay x (hg x (by simp))
      obtain ⟨b1, b2, b3, b4⟩ := ih fun y hy => hg y (by simp [hy])
      simp only [List.flatMap_cons, List.map_append, List.flatMap_append]
      refine ⟨forall₂_append a1 b1, forall₂_append ?_ b2, ?_, ?_⟩
      · rw [group_pts]; exact a2
      · intro l hl
        rcases List.mem_append.1 hl with hl | hl
        exacts [a3 l hl, b3 l hl]
      · intro l hl
        rcases List.mem_append.1 hl with hl | hl
        exacts [a4 l hl, b4 l hl]
  obtain ⟨k1, k2, k3, k4⟩ := key
  have hl1 : ∀ {ls : List Bytes} {R : Bytes → FRec → Prop} {rs : List FRec}, List.Forall₂ R ls rs → (∀ l r, R l r → l ≠ []) → ∀ l ∈ ls, l ≠ [] := by
    intro ls R rs hf hR
    induction hf with
    | nil => simp
    | cons h hs ih =>
      intro l hl
      rcases List.mem_cons.1 hl with rfl | hl
      exacts [hR _ _ h, ih l hl]
  have hl2 : ∀ {ls : List Bytes} {R : Bytes → Int × Int → Prop} {rs : List (Int × Int)}, List.Forall₂ R ls rs → (∀ l r, R l r → l ≠ []) → ∀ l ∈ ls, l ≠ [] := by
    intro ls R rs hf hR
    induction hf with
    | nil => simp
    | cons h hs ih =>
      intro l hl
      rcases List.mem_cons.1 hl with rfl | hl
      exacts [hR _ _ h, ih l hl]
  have hlf : ∀ {ls : List Bytes}, (∀ l ∈ ls, 10 ∉ l) → ∀ l ∈ ls ++ [[]], 10 ∉ l := by
    intro ls hls l hl
    rcases List.mem_append.1 hl with hl | hl
    · exact hls l hl
    · rw [List.mem_singleton.1 hl]; simp
  have hload := c111_load junk (K : ℚ) (ls := _ ++ [[]]) (ls' := _ ++ [[]]) (by simp) (hlf k4) (by simp) (hlf k3)
    (by rw [filter_lines (hl2 k2 fun _ _ => point_ne)]; exact k2) (by rw [filter_lines (hl1 k1 fun _ _ => says_ne)]; exact k1)
  rw [joinLines_eol, joinLines_eol] at hload
  have er : (ps.flatMap (recsOf lay)).map (FRec.toRec junk) = [] ++ (ps.map (groupOf junk lay)).flatMap Group.recs := by
    rw [List.map_flatMap, List.flatMap_map, List.nil_append]
    simp only [group_recs]
  have ep : (ps.flatMap fun x => (groupOf junk lay x).pts) = (ps.map (groupOf junk lay)).flatMap Group.pts ++ [] := by
    rw [List.flatMap_map, List.append_nil]
  have hagree : Agree (ps.map (groupOf junk lay)) := by
    refine ⟨?_, ?_, ?_⟩
    · intro g hg' k hk
      obtain ⟨x, hx, rfl⟩ := List.mem_map.1 hg'
      obtain ⟨y, hy, rfl⟩ := List.mem_map.1 hk
      obtain ⟨n, hn, hn'⟩ := (hg x hx).net
      obtain ⟨m, hm, hm'⟩ := (hg y hy).net
      have e1 : netOf lay x = n := by simp [netOf, hn]
      have e2 : netOf lay y = m := by simp [netOf, hm]
      show x.2.net = y.2.net ↔ str (netOf lay x) = str (netOf lay y)
      rw [e1, e2]
      constructor
      · intro e
        rw [e, hm, Option.some.injEq] at hn
        rw [hn]
      · intro e
        have := str_inj hn'.2 hm'.2 e
        subst this
        exact hinj _ _ _ hn hm
    · intro g hg' k hk _ _ e
      obtain ⟨x, hx, rfl⟩ := List.mem_map.1 hg'
      obtain ⟨y, hy, rfl⟩ := List.mem_map.1 hk
      have e : x.1 = y.1 := e
      show str (lyrOf lay x) = str (lyrOf lay y)
      rw [lyrOf, lyrOf, e]
    · intro g hg' k hk _ _ e
      obtain ⟨x, hx, rfl⟩ := List.mem_map.1 hg'
      obtain ⟨y, hy, rfl⟩ := List.mem_map.1 hk
      exact e
  have hnv : ∀ g ∈ ps.map (groupOf junk lay), g.head.isVia = false := by
    intro g hg'
    obtain ⟨x, hx, rfl⟩ := List.mem_map.1 hg'
    rfl
  have hfil : ((ps.map (groupOf junk lay)).filter fun g => !g.head.isVia) = ps.map (groupOf junk lay) :=
    List.filter_eq_self.2 fun g hg' => by simp [hnv g hg']
  have hfil' : ((ps.map (groupOf junk lay)).filter fun g => g.head.isVia) = [] :=
    List.filter_eq_nil_iff.2 fun g hg' => by simp [hnv g hg']
  obtain ⟨s, insts, i1, i2, i3, i4, i5, -⟩ := c73_import (lead := []) (by simp) (gs := ps.map (groupOf junk lay))
    (fun g hg' => by obtain ⟨x, hx, rfl⟩ := List.mem_map.1 hg'; exact group_fits junk lay x) hagree [] (by simpa using hlen)
    (by
      cases ps with
      | nil => exact absurd rfl hne
      | cons x ps => exact ⟨groupOf junk lay x, by simp, rfl⟩)
    (fun v hv hv' => by rw [hnv v hv] at hv'; cases hv')
  rw [hfil] at i2 i4 i5
  rw [hfil'] at i3
  have i3 : insts = [] := List.length_eq_zero_iff.1 i3
  subst i3
  rw [er, ep, i1, Res.bind_ok] at hload
  refine ⟨_, _, s, ?_, hload, by rw [i2, List.length_map], ?_, ?_⟩
  · simp only [writeFiles, if_true, hall]
  · intro k l pd hk
    have hgood := hg (l, pd) (List.mem_of_getElem? hk)
    obtain ⟨n, hn, hn'⟩ := hgood.net
    obtain ⟨m, hm, hm'⟩ := hgood.layer
    obtain ⟨x, x1, x2, x3, x4⟩ := i4 k (groupOf junk lay (l, pd)) (by rw [List.getElem?_map, hk]; rfl)
    refine ⟨x, n, m, x1, by rw [x2, group_shape], hn, ?_, hm, ?_⟩
    · have e1 : netOf lay (l, pd) = n := by simp [netOf, hn]
      rw [← e1]
      exact x3
    · have e2 : lyrOf lay (l, pd) = m := by simp [lyrOf, hm]
      rw [← e2]
      exact x4
  · intro k j l m pd qd x y hk hj hx hy
    exact i5 k j (groupOf junk lay (l, pd)) (groupOf junk lay (m, qd)) x y (by rw [List.getElem?_map, hk]; rfl) (by rw [List.getElem?_map, hj]; rfl) hx hy

/-- **C113 fails** for polygons whose net or layer is not found, such as those without a net: they are left out without a word. -/
theorem c113_net_refuted (rnd : ℚ → Int) (scale : ℚ) (lay : Lay) (l : Int) (a b : List Poly) (pd : Poly)
    (h : UMap.find? lay.nets pd.net = none ∨ UMap.find? lay.layers l = none)
    (pre post : List (Int × List Poly)) (dir dom dmc : Bool) :
    writeFiles rnd scale lay (pre ++ (l, a ++ pd :: b) :: post) dir dom dmc = writeFiles rnd scale lay (pre ++ (l, a ++ b) :: post) dir dom dmc := by
  have e : writeData rnd scale lay l pd = [] := by
    unfold writeData
    rcases h with h | h
    · rw [h]
    · rw [h]
      cases UMap.find? lay.nets pd.net <;> rfl
  simp [writeFiles, writeLayer, e]

/-- **C113 fails** if nothing is written, for want of polygons with nets: the files are there and empty, the result is true, and their import is undefined. -/
theorem c113_empty_refuted (junk : Int) (rnd : ℚ → Int) (K : Nat) (lay : Lay) (ms : List (Int × List Poly))
    (h : ∀ x ∈ allPolys ms, UMap.find? lay.nets x.2.net = none) :
    writeFiles rnd (1 / (K : ℚ)) lay ms true true true = (some [], some [], true) ∧ load junk (K : ℚ) (some []) (some []) = .ub := by
  refine ⟨?_, rfl⟩
  have e : ms.flatMap (writeLayer rnd (1 / (K : ℚ)) lay) = [] := by
    rw [write_all, List.flatMap_eq_nil_iff]
    intro x hx
    unfold writeData
    rw [h x hx]
  simp only [writeFiles, e]
  rfl

/-- a rounding to a nearest whole number -/
def Nearest (rnd : ℚ → Int) : Prop := ∀ q : ℚ, |(rnd q : ℚ) - q| ≤ 1 / 2

/-- **C113 fails** for large units, such as the metre with coordinates of a nanometre (`scale` is then 10⁻⁹): coordinates less than half a millionth of a
unit from zero are all written as zero. -/
theorem c113_unit_refuted (hr : Nearest rnd) {scale : ℚ} {c : Int} (h : |(c : ℚ) * scale * 1000000| < 1 / 2) : coord rnd scale c = coord rnd scale 0 := by
  have hz : ∀ q : ℚ, |q| < 1 / 2 → rnd q = 0 := by
    intro q hq
    have h1 := abs_le.1 (hr q)
    have h2 := abs_lt.1 hq
    have h3 : (rnd q : ℚ) < 1 := by linarith
    have h4 : (-1 : ℚ) < rnd q := by linarith
    have h3 : rnd q < 1 := by exact_mod_cast h3
    have h4 : -1 < rnd q := by exact_mod_cast h4
    omega
  unfold coord fmt
  rw [hz _ h, hz _ (by norm_num)]

/-- the line of a polygon in words, whatever the names are -/
theorem line_words (h : Units rnd K) (lyrId netId : Int) {lyrName netName : Bytes} {lw nw : List Bytes} (hl : Words lyrName lw) (hn : Words netName nw)
    (p : List (Int × Int)) (isHole : Bool) :
    Words (writePoly rnd (1 / (K : ℚ)) lyrId lyrName netId netName p isHole).1
      (digs p.length :: fmtInt (if isHole then 0 else 1) :: fmtInt lyrId :: coord rnd (1 / (K : ℚ)) (lo Prod.fst p) :: coord rnd (1 / (K : ℚ)) (hi Prod.fst p) ::
        coord rnd (1 / (K : ℚ)) (lo Prod.snd p) :: coord rnd (1 / (K : ℚ)) (hi Prod.snd p) :: fmtInt netId :: (nw ++ fmtInt lyrId :: lw)) := by
  have hi (i : Int) := words_word (isWord_int (isInt_fmtInt i))
  have hc (c : Int) := words_word (isWord_dec (coord_text h c))
  have := words_join (.cons (words_word (isWord_digs p.length)) (.cons (hi (if isHole then 0 else 1)) (.cons (hi lyrId) (.cons (hc (lo Prod.fst p))
    (.cons (hc (Dmc.hi Prod.fst p)) (.cons (hc (lo Prod.snd p)) (.cons (hc (Dmc.hi Prod.snd p)) (.cons (hi netId) (.cons hn (.cons (hi lyrId) (.cons hl .nil)))))))))))
  simpa [writePoly, dmcWords, -one_div] using this

theorem poly_nums (h : Units rnd K) {lyrId netId : Int} (hl : Int32Ok lyrId) (hn : Int32Ok netId) (netName sig lyrName : Bytes) {p : List (Int × Int)} (hp : PolyOk p)
    (isHole : Bool) :
    (⟨digs p.length, fmtInt (if isHole then 0 else 1), fmtInt lyrId, coord rnd (1 / (K : ℚ)) (lo Prod.fst p), coord rnd (1 / (K : ℚ)) (hi Prod.fst p),
      coord rnd (1 / (K : ℚ)) (lo Prod.snd p), coord rnd (1 / (K : ℚ)) (hi Prod.snd p), fmtInt netId, netName, sig, lyrName⟩ : Line).Nums p.length
      (if isHole then 0 else 1) lyrId netId ((lo Prod.fst p : ℚ) / K) ((hi Prod.fst p : ℚ) / K) ((lo Prod.snd p : ℚ) / K) ((hi Prod.snd p : ℚ) / K) := by
  obtain ⟨a, a0, a1, a2, a3⟩ := digs_text p.length
  refine ⟨⟨a, a0, a1, a2, a3, hp.2.1⟩, ⟨isInt_fmtInt _, ?_⟩, ⟨isInt_fmtInt _, hl⟩, coord_text h _, coord_text h _, coord_text h _, coord_text h _, ⟨isInt_fmtInt _, hn⟩⟩
  cases isHole <;> simp [Int32Ok]

/-- **C113 fails** for a net name of several words, if the second is not a number and does not start with `V`: reading the line throws an exception,
and so does reading the file, whose first polygon it is of. -/
theorem c113_blank_refuted (h : Units rnd K) {lay : Lay} {l : Int} {pd : Poly} {rest : List Poly} {ms : List (Int × List Poly)} {n m a b : Bytes} {more : List Bytes}
    (hn : UMap.find? lay.nets pd.net = some n) (hm : UMap.find? lay.layers l = some m) (hw : Words n (a :: b :: more)) (hb : NoNum b) (hv : b.head? ≠ some 86)
    (hlf : 10 ∉ n) (hm' : NameOk m) (hl : Int32Ok l) (hi : Int32Ok pd.net) (hp : PolyOk pd.solid) :
    ∃ dom dmc, writeFiles rnd (1 / (K : ℚ)) lay ((l, pd :: rest) :: ms) true true true = (some dom, some dmc, true) ∧ parseDmcFile (K : ℚ) (some dmc) = .exn := by
  refine ⟨_, _, rfl, ?_⟩
  have hline := line_words h l pd.net (words_word hm'.1) hw pd.solid false
  have hexn := c111_exn_refuted (K : ℚ) (w := ⟨digs pd.solid.length, fmtInt 1, fmtInt l, coord rnd (1 / (K : ℚ)) (lo Prod.fst pd.solid),
    coord rnd (1 / (K : ℚ)) (Dmc.hi Prod.fst pd.solid), coord rnd (1 / (K : ℚ)) (lo Prod.snd pd.solid), coord rnd (1 / (K : ℚ)) (Dmc.hi Prod.snd pd.solid), fmtInt pd.net, a, b, m⟩)
    (rest := more ++ [fmtInt l, m]) (by simpa [Line.words, -one_div] using hline) hb hv (poly_nums h hl hi a b m hp false)
  have hc : ∀ c : Int, 10 ∉ coord rnd (1 / (K : ℚ)) c := fun c => word_lf (isWord_dec (coord_text h c))
  have hf : ∀ i : Int, 10 ∉ fmtInt i := fun i => word_lf (isWord_int (isInt_fmtInt i))
  have hlf' : 10 ∉ (writePoly rnd (1 / (K : ℚ)) l m pd.net n pd.solid false).1 := by
    simp [writePoly, dmcWords, joinSp, hc, hf, hlf, word_lf hm'.1, word_lf (isWord_digs _), -one_div]
  have hne : (writePoly rnd (1 / (K : ℚ)) l m pd.net n pd.solid false).1 ≠ [] := by
    simp [writePoly, dmcWords, joinSp]
  have he : ∀ (x t cur : Bytes), 10 ∉ x → fileLines cur (x ++ 10 :: t) = (cur ++ x) :: fileLines [] t := by
    intro x t cur hx
    induction x generalizing cur with
    | nil => simp [fileLines]
    | cons c x ih =>
      have h1 : c ≠ 10 := fun e => hx (by simp [e])
      have h2 : 10 ∉ x := fun e => hx (by simp [e])
      rw [List.cons_append, fileLines, if_neg h1, ih _ h2]
      simp
  simp only [List.flatMap_cons, writeLayer, List.map_append, writeData, hn, hm, List.map_cons, List.cons_append, eol, List.append_assoc, List.nil_append]
  unfold parseDmcFile
  dsimp only
  rw [he _ _ _ hlf', dmcLines, List.nil_append, if_neg hne, hexn]
  rfl

/-- **C113 fails** for a layer name of several words: the polygon is read with the first of them. -/
theorem c113_layer_refuted (h : Units rnd K) {lyrId netId : Int} (hl : Int32Ok lyrId) (hn : Int32Ok netId) {lyrName netName a : Bytes} {more : List Bytes}
    (hw : Words lyrName (a :: more)) (hnn : NameOk netName) {p : List (Int × Int)} (hp : PolyOk p) (isHole : Bool) :
    parseDmcLine (K : ℚ) (writePoly rnd (1 / (K : ℚ)) lyrId lyrName netId netName p isHole).1 = .ok (some (recOf lyrId a netId netName p isHole)) := by
  obtain ⟨x1, m1, e1⟩ := lo_mem Prod.fst p hp.1
  obtain ⟨x2, m2, e2⟩ := hi_mem Prod.fst p hp.1
  obtain ⟨x3, m3, e3⟩ := lo_mem Prod.snd p hp.1
  obtain ⟨x4, m4, e4⟩ := hi_mem Prod.snd p hp.1
  refine c111_line (w := ⟨digs p.length, fmtInt (if isHole then 0 else 1), fmtInt lyrId, coord rnd (1 / (K : ℚ)) (lo Prod.fst p), coord rnd (1 / (K : ℚ)) (hi Prod.fst p),
      coord rnd (1 / (K : ℚ)) (lo Prod.snd p), coord rnd (1 / (K : ℚ)) (hi Prod.snd p), fmtInt netId, netName, fmtInt lyrId, a⟩) (extra := more)
    (by simpa [Line.words, -one_div] using line_words h lyrId netId hw (words_word hnn.1) p isHole) ?_
  refine ⟨p.length, if isHole then 0 else 1, lyrId, netId, _, _, _, _, lyrId, poly_nums h hl hn netName _ a hp isHole,
      .layer (isInt_fmtInt _) hl, rfl, ?_, rfl, rfl, rfl, ?_, ?_, ?_, ?_, rfl, rfl⟩
  · cases isHole <;> simp [recOf]
  · exact coord_cut h (e1 ▸ (hp.2.2 x1 m1).1)
  · exact coord_cut h (e3 ▸ (hp.2.2 x3 m3).2)
  · exact coord_cut h (e2 ▸ (hp.2.2 x2 m2).1)
  · exact coord_cut h (e4 ▸ (hp.2.2 x4 m4).2)

/-- **C113 fails** for files that cannot be opened: nothing is written and the result is true; only a directory that cannot be made is noticed. -/
theorem c113_open_refuted (rnd : ℚ → Int) (scale : ℚ) (lay : Lay) (ms : List (Int × List Poly)) (dom dmc : Bool) :
    writeFiles rnd scale lay ms true false false = (none, none, true) ∧ writeFiles rnd scale lay ms false dom dmc = (none, none, false) := ⟨rfl, rfl⟩

/-! ### examples -/

/-- a layout with nets `GND` (7) and `A B` (8) and the layers `TOP` (2) and `BOT L` (3) -/
def exLay : Lay := ⟨[(7, [71, 78, 68]), (8, [65, 32, 66])], [(2, [84, 79, 80]), (3, [66, 79, 84, 32, 76])]⟩

/-- a triangle with a hole -/
def exPoly : Poly := ⟨7, [(0, 0), (4000, 0), (0, -4500)], [[(1, 1), (2, 1), (2, 3)]]⟩

theorem ex_units : Units (fun q => Int.floor (q + 1 / 2)) 1000 :=
  ⟨by decide, fun n => by rw [Int.floor_eq_iff]; constructor <;> norm_num⟩

theorem ex_good : ∀ x ∈ allPolys [(2, [exPoly, exPoly])], Good exLay x.1 x.2 := by
  intro x hx
  have hx : x = (2, exPoly) := by simpa [allPolys] using hx
  subst hx
  refine ⟨⟨_, rfl, ⟨by decide, by decide⟩, by decide⟩, ⟨_, rfl, ⟨by decide, by decide⟩, by decide⟩, by unfold Int32Ok; decide, by unfold Int32Ok; decide,
    ⟨by decide, by decide, by unfold Int64Ok; decide⟩, by unfold PolyOk Int64Ok; decide⟩

example : ∃ dom dmc s, writeFiles (fun q => Int.floor (q + 1 / 2)) (1 / (1000 : Nat)) exLay [(2, [exPoly, exPoly])] true true true = (some dom, some dmc, true) ∧
    load 0 (1000 : Nat) (some dom) (some dmc) = .ok (.ok (s, [])) ∧ s.geoms.length = 2 := by
  obtain ⟨dom, dmc, s, h1, h2, h3, -⟩ := c113_roundtrip_partial 0 ex_units (lay := exLay) (ms := [(2, [exPoly, exPoly])])
    (by
      intro i j n hi hj
      have key : ∀ i, UMap.find? exLay.nets i = some n → (i = 7 ∧ n = [71, 78, 68]) ∨ (i = 8 ∧ n = [65, 32, 66]) := by
        intro i hi
        simp only [exLay, UMap.find?, List.find?_cons, List.find?_nil] at hi
        by_cases h7 : (7 : Int) = i
        · simp only [h7, decide_true, Option.map_some, Option.some.injEq] at hi
          exact .inl ⟨h7.symm, hi.symm⟩
        · by_cases h8 : (8 : Int) = i
          · simp only [h7, h8, decide_true, decide_false, Option.map_some, Option.some.injEq] at hi
            exact .inr ⟨h8.symm, hi.symm⟩
          · simp [h7, h8] at hi
      rcases key i hi with ⟨a, b⟩ | ⟨a, b⟩ <;> rcases key j hj with ⟨c, d⟩ | ⟨c, d⟩
      · rw [a, c]
      · rw [b] at d; exact absurd d (by decide)
      · rw [b] at d; exact absurd d (by decide)
      · rw [a, c])
    ex_good (by decide) (by decide)
  exact ⟨dom, dmc, s, h1, h2, h3⟩
/-- the line of the outline: `3 1 2 0.000000 4.000000 -4.500000 0.000000 7 GND 2 TOP` -/
example : (writePoly (fun q => Int.floor (q + 1 / 2)) (1 / 1000) 2 [84, 79, 80] 7 [71, 78, 68] exPoly.solid false).1 =
    [51, 32, 49, 32, 50, 32, 48, 46, 48, 48, 48, 48, 48, 48, 32, 52, 46, 48, 48, 48, 48, 48, 48, 32, 45, 52, 46, 53, 48, 48, 48, 48, 48, 32, 48, 46, 48, 48, 48, 48, 48, 48, 32,
      55, 32, 71, 78, 68, 32, 50, 32, 84, 79, 80] := by decide +kernel
/-- a net name of two words -/
example : Words ([65, 32, 66] : Bytes) [[65], [66]] := words_append (a := [65]) (b := [66]) (words_word ⟨by decide, by decide⟩) (words_word ⟨by decide, by decide⟩)
example : NoNum ([66] : Bytes) := ⟨66, [], rfl, by decide, by decide, by decide, by decide⟩
/-- a metre -/
example : Nearest fun q => Int.floor (q + 1 / 2) := by
  intro q
  have h1 := Int.floor_le (q + 1 / 2)
  have h2 := Int.lt_floor_add_one (q + 1 / 2)
  rw [abs_le]
  constructor <;> linarith
example : |((400 : Int) : ℚ) * (1 / 1000000000) * 1000000| < 1 / 2 := by norm_num
/-- no net -/
example : UMap.find? exLay.nets (-1) = none := by decide

end Ecad.Dmc
