import Verif.Gds.MapFileModel
import Verif.Dmc.FileProps
/-!
C112: a layer map file is read row by row, and files with other lines are rejected.
-/
namespace Ecad.Gds
open Ctm (Bytes split splitAux stod stodAbs stol orExn fileLines isDig isSpace digitsVal takeWhile_dig)
open Dmc (stoi IsInt IsDec Signed dtext dval joinLines)

/-! ## specification -/

/-- `l` is the items `ts` with blanks (byte 32) between them -/
inductive Items : Bytes → List Bytes → Prop
  | nil (n : Nat) : Items (List.replicate n 32) []
  | cons (n : Nat) {t r : Bytes} {ts : List Bytes} (hne : t ≠ []) (ht : 32 ∉ t) (hr : ∀ c, r.head? = some c → c = 32) (h : Items r ts) :
      Items (List.replicate n 32 ++ (t ++ r)) (t :: ts)

/-- lines that say nothing: empty ones and comments -/
def Idle (l : Bytes) : Prop := l = [] ∨ l.head? = some 35

/-- the line of a row: name, kind, layer number, data type and thickness; a carriage return at the end does no harm -/
def RowLine (l : Bytes) (r : LayerRow) : Prop :=
  ∃ k a b t e, Items l [r.name, k, a, b, t ++ e] ∧ (r.conducting = true ↔ ∃ u, k = 109 :: u ∨ k = 77 :: u) ∧ IsInt a r.layerId ∧ IsInt b r.dataType ∧
    (-2 ^ 31 ≤ r.layerId ∧ r.layerId < 2 ^ 31) ∧ (-2 ^ 31 ≤ r.dataType ∧ r.dataType < 2 ^ 31) ∧ IsDec t r.thickness ∧ (e = [] ∨ e = [13])

/-- the lines of a layer map file and its rows -/
inductive MapLines : List Bytes → List LayerRow → Prop
  | nil : MapLines [] []
  | idle {l : Bytes} {ls : List Bytes} {rs : List LayerRow} (hl : Idle l) (h : MapLines ls rs) : MapLines (l :: ls) rs
  | row {l : Bytes} {r : LayerRow} {ls : List Bytes} {rs : List LayerRow} (hl : ¬ Idle l) (hr : RowLine l r) (h : MapLines ls rs) :
      MapLines (l :: ls) (r :: rs)

/-! ## items of a line -/

theorem splitAux_word {t : Bytes} (ht : 32 ∉ t) (cur r : Bytes) : splitAux (fun c => c == 32) cur (t ++ r) = splitAux (fun c => c == 32) (cur ++ t) r := by
  induction t generalizing cur with
  | nil => simp
  | cons c t ih =>
    rw [List.cons_append, splitAux, if_neg (by simp only [beq_iff_eq]; intro e; exact ht (by simp [e])), ih fun h => ht (by simp [h])]
    simp

theorem splitAux_blanks (n : Nat) (r : Bytes) : splitAux (fun c => c == 32) [] (List.replicate n 32 ++ r) = splitAux (fun c => c == 32) [] r := by
  induction n with
  | zero => rfl
  | succ n ih => rw [List.replicate_succ, List.cons_append, splitAux, if_pos (by rfl), if_pos rfl, ih]

theorem split_items {l : Bytes} {ts : List Bytes} (h : Items l ts) : split (fun c => c == 32) l = ts := by
  unfold split
  induction h with
  | nil n =>
    have := splitAux_blanks n []
    rw [List.append_nil] at this
    rw [this]
    rfl
  | cons n hne ht hr h ih =>
    rename_i t r ts
    rw [splitAux_blanks, splitAux_word ht, List.nil_append]
    cases r with
    | nil =>
      rw [splitAux, if_neg hne]
      rw [splitAux, if_pos rfl] at ih
      rw [← ih]
    | cons c r =>
      have hc := hr c rfl
      subst hc
      rw [splitAux, if_pos (by rfl), if_neg hne]
      rw [splitAux, if_pos (by rfl), if_pos rfl] at ih
      rw [ih]

/-- every line is made of items -/
theorem items_exist (l : Bytes) : ∃ ts, Items l ts := by
  have key : ∀ k (l : Bytes), l.length ≤ k → ∃ ts, Items l ts := by
    intro k
    induction k with
    | zero =>
      intro l hl
      have : l = [] := List.length_eq_zero_iff.1 (by omega)
      subst this
      exact ⟨[], .nil 0⟩
    | succ k ih =>
      intro l hl
      have hb : ∀ l : Bytes, ∃ n r, l = List.replicate n 32 ++ r ∧ ∀ c, r.head? = some c → c ≠ 32 := by
        intro l
        induction l with
        | nil => exact ⟨0, [], rfl, by simp⟩
        | cons c l ihl =>
          by_cases hc : c = 32
          · obtain ⟨n, r, rfl, hr⟩ := ihl
            exact ⟨n + 1, r, by rw [hc, List.replicate_succ, List.cons_append], hr⟩
          · exact ⟨0, c :: l, rfl, by simp [hc]⟩
      have hw : ∀ l : Bytes, ∃ t r, l = t ++ r ∧ 32 ∉ t ∧ (∀ c, r.head? = some c → c = 32) ∧ (∀ c, l.head? = some c → c ≠ 32 → t ≠ []) := by
        intro l
        induction l with
        | nil => exact ⟨[], [], rfl, by simp, by simp, by simp⟩
        | cons c l ihl =>
          by_cases hc : c = 32
          · exact ⟨[], c :: l, rfl, by simp, by simp [hc], by simp [hc]⟩
          · obtain ⟨t, r, rfl, ht, hr, _⟩ := ihl
            exact ⟨c :: t, r, rfl, by simp [ht, Ne.symm hc], hr, by simp⟩
      obtain ⟨n, r, rfl, hr⟩ := hb l
      obtain ⟨t, r', rfl, ht, hr', hne⟩ := hw r
      by_cases h : t ++ r' = []
      · rw [h, List.append_nil]
        exact ⟨[], .nil n⟩
      · have hne : t ≠ [] := by
          cases hx : (t ++ r').head? with
          | none => exact absurd (List.head?_eq_none_iff.1 hx) h
          | some c => exact hne c hx (hr c hx)
        have hlen : r'.length ≤ k := by
          have : 0 < t.length := List.length_pos_iff.2 hne
          simp only [List.length_append, List.length_replicate] at hl
          omega
        obtain ⟨ts, hts⟩ := ih r' hlen
        exact ⟨t :: ts, .cons n hne ht hr' hts⟩
  exact key l.length l le_rfl

theorem split_iff (l : Bytes) (ts : List Bytes) : split (fun c => c == 32) l = ts ↔ Items l ts := by
  constructor
  · intro h
    obtain ⟨us, hu⟩ := items_exist l
    rw [split_items hu] at h
    exact h ▸ hu
  · exact split_items

/-! ## numbers -/

theorem dropSpace {u : Bytes} (h : ∀ c, u.head? = some c → 33 ≤ c) : u.dropWhile isSpace = u := by
  cases u with
  | nil => rfl
  | cons c u => rw [List.dropWhile_cons_of_neg (by rw [Ctm.isSpace_of (h c rfl)]; simp)]

theorem stoi_junk {t : Bytes} {i : Int} (h : IsInt t i) (h1 : -2 ^ 31 ≤ i) (h2 : i < 2 ^ 31) {r : Bytes}
    (hr : ∀ c, r.head? = some c → isDig c = false) : stoi (t ++ r) = .ok i := by
  obtain ⟨s, e, a, hs, hne, ha, rfl, rfl⟩ := h
  have hd := (takeWhile_dig (Dmc.dtext_dig ha) hr).1
  have hst : stol ((s ++ dtext a) ++ r) = some (e * dval a) := by
    unfold stol
    rw [List.append_assoc]
    have hh := Dmc.dtext_head ha hne r
    rcases hs with ⟨rfl, rfl⟩ | ⟨rfl, rfl⟩ | ⟨rfl, rfl⟩
    · rw [List.nil_append, dropSpace fun c hc => by have := hh c hc; omega]
      simp only
      split
      · next h => have := hh 45 (by rw [h]; rfl); omega
      · next h => have := hh 43 (by rw [h]; rfl); omega
      · rw [hd, if_neg (Dmc.dtext_ne hne), Dmc.digitsVal_dtext, one_mul]
    · have : ([43] ++ (dtext a ++ r)).dropWhile isSpace = 43 :: (dtext a ++ r) := rfl
      rw [this]
      simp only
      rw [hd, if_neg (Dmc.dtext_ne hne), Dmc.digitsVal_dtext, one_mul]
    · have : ([45] ++ (dtext a ++ r)).dropWhile isSpace = 45 :: (dtext a ++ r) := rfl
      rw [this]
      simp only
      rw [hd, if_neg (Dmc.dtext_ne hne), Dmc.digitsVal_dtext, Option.map_some]
      simp
  unfold stoi
  rw [hst]
  dsimp only
  rw [if_pos ⟨h1, h2⟩]

theorem stodAbs_dec {a b : List Nat} {p : Bool} (hne : a ≠ [] ∨ b ≠ []) (ha : ∀ d ∈ a, d < 10) (hb : ∀ d ∈ b, d < 10) (hp : p = false → b = [])
    {r : Bytes} (hr : ∀ c, r.head? = some c → isDig c = false ∧ c ≠ 46) :
    stodAbs (dtext a ++ ((if p then 46 :: dtext b else []) ++ r)) = some ((dval a : ℚ) + (dval b : ℚ) / 10 ^ b.length) := by
  unfold stodAbs
  cases p with
  | false =>
    have hb0 := hp rfl
    subst hb0
    have hne : a ≠ [] := hne.resolve_right (by simp)
    have hd := takeWhile_dig (Dmc.dtext_dig ha) (b := r) fun c hc => (hr c hc).1
    have e : (if false = true then 46 :: dtext [] else []) ++ r = r := rfl
    rw [e]
    dsimp only
    rw [hd.1, hd.2, if_neg (fun h => Dmc.dtext_ne hne h.1), Dmc.digitsVal_dtext]
    cases r with
    | nil => simp [dval, digitsVal]
    | cons c r =>
      have h46 := (hr c rfl).2
      split
      · next h => exact absurd (List.cons.inj h).1 h46
      · simp_all [dval, digitsVal]
  | true =>
    have e : (if true = true then 46 :: dtext b else []) ++ r = 46 :: (dtext b ++ r) := rfl
    rw [e]
    have hd := takeWhile_dig (b := 46 :: (dtext b ++ r)) (Dmc.dtext_dig ha) (by intro c hc; simp only [List.head?_cons, Option.some.injEq] at hc; subst hc; rfl)
    have hd2 := takeWhile_dig (Dmc.dtext_dig hb) (b := r) fun c hc => (hr c hc).1
    dsimp only
    rw [hd.1, hd.2]
    simp only
    rw [hd2.1, if_neg, Dmc.digitsVal_dtext, Dmc.digitsVal_dtext]
    · simp [dtext]
    · rintro ⟨h1, h2⟩
      rcases hne with h | h
      · exact Dmc.dtext_ne h h1
      · exact Dmc.dtext_ne h h2

theorem stod_dec {t : Bytes} {q : ℚ} (h : IsDec t q) {r : Bytes} (hr : ∀ c, r.head? = some c → isDig c = false ∧ c ≠ 46) : stod (t ++ r) = some q := by
  obtain ⟨s, e, a, b, p, hs, hne, ha, hb, hp, rfl, rfl⟩ := h
  have hk := stodAbs_dec hne ha hb hp hr
  have hh : ∀ c, (dtext a ++ ((if p then 46 :: dtext b else []) ++ r)).head? = some c → 46 ≤ c := by
    intro c hc
    by_cases h : a = []
    · subst h
      cases p with
      | false => exact absurd (hp rfl) (hne.resolve_left (by simp))
      | true =>
        simp [dtext] at hc
        omega
    · have := Dmc.dtext_head ha h _ c hc
      omega
  have e : (s ++ (dtext a ++ if p then 46 :: dtext b else [])) ++ r = s ++ (dtext a ++ ((if p then 46 :: dtext b else []) ++ r)) := by simp
  rw [e]
  generalize dtext a ++ ((if p then 46 :: dtext b else []) ++ r) = u at hk hh
  unfold stod
  rcases hs with ⟨rfl, rfl⟩ | ⟨rfl, rfl⟩ | ⟨rfl, rfl⟩
  · rw [List.nil_append, dropSpace fun c hc => by have := hh c hc; omega]
    split
    · have := hh 45 rfl; omega
    · have := hh 43 rfl; omega
    · rw [hk]; simp
  · have : ([43] ++ u).dropWhile isSpace = 43 :: u := rfl
    rw [this]
    simp only
    rw [hk]; simp
  · have : ([45] ++ u).dropWhile isSpace = 45 :: u := rfl
    rw [this]
    simp only
    rw [hk]; simp

/-! ## rows -/

theorem startsM_iff (k : Bytes) : startsM k = true ↔ ∃ u, k = 109 :: u ∨ k = 77 :: u := by
  cases k with
  | nil => simp [startsM]
  | cons c k =>
    simp only [startsM, List.head?_cons, Bool.or_eq_true, beq_iff_eq, Option.some.injEq, List.cons.injEq]
    exact ⟨fun h => ⟨k, by tauto⟩, fun ⟨u, h⟩ => by tauto⟩

/-- The line of a row gives the row. -/
theorem c112_row {l : Bytes} {r : LayerRow} (h : RowLine l r) : parseRow l = .ok (some r) := by
  obtain ⟨k, a, b, t, e, hi, hk, ha, hb, hA, hB, ht, he⟩ := h
  have h1 := stoi_junk ha hA.1 hA.2 (r := []) (by simp)
  have h2 := stoi_junk hb hB.1 hB.2 (r := []) (by simp)
  rw [List.append_nil] at h1 h2
  have h3 : stod (t ++ e) = some r.thickness := stod_dec ht (by rcases he with rfl | rfl <;> simp [isDig])
  unfold parseRow
  rw [split_items hi]
  simp only
  rw [h1, h2, h3]
  have hs : startsM k = r.conducting := by
    rw [Bool.eq_iff_iff, startsM_iff, hk]
  simp only [Res.bind_ok, orExn, hs]

theorem items_len {l : Bytes} {ts us : List Bytes} (h : Items l ts) (h' : Items l us) : ts = us := by
  rw [← split_items h, split_items h']

/-- A line is refused, without exception, exactly if it does not have five items. -/
theorem c112_refuse (l : Bytes) : parseRow l = .ok none ↔ ∀ ts, Items l ts → ts.length ≠ 5 := by
  obtain ⟨ts, h⟩ := items_exist l
  unfold parseRow
  rw [split_items h]
  constructor
  · intro hp us hu
    have := items_len h hu
    subst this
    intro hl
    match ts, hl with
    | [n, k, a, b, t], _ =>
      simp only at hp
      cases ha : stoi a with
      | ok x =>
        cases hb : stoi b with
        | ok y =>
          cases ht : stod t with
          | none => rw [ha, hb, ht] at hp; simp [orExn] at hp
          | some z => rw [ha, hb, ht] at hp; simp [orExn] at hp
        | ub => rw [ha, hb] at hp; simp at hp
        | exn => rw [ha, hb] at hp; simp at hp
      | ub => rw [ha] at hp; simp at hp
      | exn => rw [ha] at hp; simp at hp
  · intro hp
    have := hp ts h
    split
    · next e => simp at this
    · rfl

/-! ## files -/

theorem parseRows_lines {ls : List Bytes} {rs : List LayerRow} (h : MapLines ls rs) (m : LMap) (more : List Bytes) :
    parseRows m (ls ++ more) = parseRows (rs.foldl LMap.addLayer m) more := by
  induction h generalizing m with
  | nil => rfl
  | idle hl h ih =>
    rename_i l ls rs
    rw [List.cons_append, parseRows]
    rcases hl with hl | hl
    · rw [if_pos hl, ih]
    · by_cases h0 : l = []
      · rw [if_pos h0, ih]
      · rw [if_neg h0, if_pos hl, ih]
  | row hl hr h ih =>
    rw [List.cons_append, parseRows, if_neg fun e => hl (.inl e), if_neg fun e => hl (.inr e), c112_row hr]
    simp only [Res.bind_ok, List.foldl_cons]
    rw [ih]

theorem foldl_layers (rs : List LayerRow) (m : LMap) : (rs.foldl LMap.addLayer m).layers = m.layers ++ rs := by
  induction rs generalizing m with
  | nil => simp
  | cons r rs ih =>
    rw [List.foldl_cons, ih]
    simp [LMap.addLayer]

/-- A file of rows, comments and empty lines gives the rows in order, whatever the map held before. -/
theorem c112_file {ls : List Bytes} {rs : List LayerRow} (h : MapLines ls rs) (hne : ls ≠ []) (hlf : ∀ l ∈ ls, 10 ∉ l) (m : LMap) :
    ∃ m', parseMapFile m (some (joinLines ls)) = .ok (m', true) ∧ m'.layers = rs := by
  refine ⟨rs.foldl LMap.addLayer {}, ?_, by rw [foldl_layers]; rfl⟩
  unfold parseMapFile
  simp only
  rw [Dmc.fileLines_join hne hlf]
  have := parseRows_lines h {} []
  rw [List.append_nil] at this
  exact this

/-- A file is rejected at the first line that is not idle and has not five items. -/
theorem c112_reject {ls more : List Bytes} {rs : List LayerRow} {l : Bytes} (h : MapLines ls rs) (hl : ¬ Idle l) (h5 : ∀ ts, Items l ts → ts.length ≠ 5)
    (hlf : ∀ x ∈ ls ++ l :: more, 10 ∉ x) (m : LMap) : ∃ m', parseMapFile m (some (joinLines (ls ++ l :: more))) = .ok (m', false) := by
  refine ⟨rs.foldl LMap.addLayer {}, ?_⟩
  unfold parseMapFile
  simp only
  rw [Dmc.fileLines_join (by simp) hlf]
  have e := parseRows_lines h {} (l :: more)
  refine e.trans ?_
  rw [parseRows, if_neg fun e => hl (.inl e), if_neg fun e => hl (.inr e), (c112_refuse l).2 h5]
  rfl

theorem parseRow_some {l : Bytes} {r : LayerRow} (h : parseRow l = .ok (some r)) :
    ∃ k a b t, Items l [r.name, k, a, b, t] ∧ (r.conducting = true ↔ ∃ u, k = 109 :: u ∨ k = 77 :: u) ∧ stoi a = .ok r.layerId ∧ stoi b = .ok r.dataType ∧
      stod t = some r.thickness := by
  obtain ⟨ts, hi⟩ := items_exist l
  unfold parseRow at h
  rw [split_items hi] at h
  split at h
  · next n k a b t =>
    cases ha : stoi a with
    | ok x =>
      cases hb : stoi b with
      | ok y =>
        cases ht : stod t with
        | none => rw [ha, hb, ht] at h; simp [orExn] at h
        | some z =>
          rw [ha, hb, ht] at h
          simp only [Res.bind_ok, orExn, Res.ok.injEq, Option.some.injEq] at h
          subst h
          exact ⟨k, a, b, t, hi, startsM_iff k, ha, hb, ht⟩
      | ub => rw [ha, hb] at h; simp at h
      | exn => rw [ha, hb] at h; simp at h
    | ub => rw [ha] at h; simp at h
    | exn => rw [ha] at h; simp at h
  · simp at h

theorem parseRows_true (ls : List Bytes) (m m' : LMap) (h : parseRows m ls = .ok (m', true)) :
    ∃ rs, m'.layers = m.layers ++ rs ∧ List.Forall₂ (fun l r => ∃ k a b t, Items l [r.name, k, a, b, t]) (ls.filter fun l => decide (l ≠ [] ∧ l.head? ≠ some 35)) rs := by
  induction ls generalizing m with
  | nil =>
    simp only [parseRows, Res.ok.injEq, Prod.mk.injEq, and_true] at h
    exact ⟨[], by simp [h], .nil⟩
  | cons l ls ih =>
    rw [parseRows] at h
    by_cases h0 : l = []
    · rw [if_pos h0] at h
      rw [List.filter_cons_of_neg (by simp [h0])]
      exact ih m h
    · rw [if_neg h0] at h
      by_cases h1 : l.head? = some 35
      · rw [if_pos h1] at h
        rw [List.filter_cons_of_neg (by simp [h1])]
        exact ih m h
      · rw [if_neg h1] at h
        rw [List.filter_cons_of_pos (by simp [h0, h1])]
        cases hp : parseRow l with
        | ub => rw [hp] at h; simp at h
        | exn => rw [hp] at h; simp at h
        | ok o =>
          rw [hp] at h
          cases o with
          | none => simp at h
          | some r =>
            simp only [Res.bind_ok] at h
            obtain ⟨rs, h2, h3⟩ := ih _ h
            obtain ⟨k, a, b, t, hi, _⟩ := parseRow_some hp
            refine ⟨r :: rs, ?_, .cons ⟨k, a, b, t, hi⟩ h3⟩
            rw [h2]
            simp [LMap.addLayer]

/-- If a file is read, its rows are the lines that are not idle, in order, and each of these lines has five items, the first being the name. -/
theorem c112_accept (m m' : LMap) (ls : List Bytes) (hne : ls ≠ []) (hlf : ∀ l ∈ ls, 10 ∉ l) (h : parseMapFile m (some (joinLines ls)) = .ok (m', true)) :
    List.Forall₂ (fun l r => ∃ k a b t, Items l [r.name, k, a, b, t]) (ls.filter fun l => decide (l ≠ [] ∧ l.head? ≠ some 35)) m'.layers := by
  unfold parseMapFile at h
  simp only at h
  rw [Dmc.fileLines_join hne hlf] at h
  obtain ⟨rs, h1, h2⟩ := parseRows_true _ _ _ h
  rw [h1]
  exact h2

/-! ## looking up -/

/-- positions kept by the map are those of the first row of their number -/
def LOk (m : LMap) : Prop := ∀ id, m.getLayer id = m.layers.find? fun r => r.layerId == id

def LBound (m : LMap) : Prop := ∀ id i, UMap.find? m.ids id = some i → i < m.layers.length

theorem addLayer_ok {m : LMap} (h : LOk m) (hb : LBound m) (r : LayerRow) : LOk (m.addLayer r) ∧ LBound (m.addLayer r) := by
  constructor
  · intro id
    have h0 := h id
    unfold LMap.getLayer at h0 ⊢
    unfold LMap.addLayer
    simp only
    rw [List.find?_append, ← h0, UMap.find?_emplace']
    cases hf : UMap.find? m.ids id with
    | some i =>
      have := hb id i hf
      rw [if_neg (by rintro ⟨rfl, h⟩; rw [hf] at h; cases h)]
      simp [List.getElem?_append_left this, List.getElem?_eq_getElem this]
    | none =>
      by_cases hid : r.layerId = id
      · subst hid
        rw [if_pos ⟨rfl, hf⟩]
        simp
      · simp [hid, Ne.symm hid]
  · intro id i hf
    unfold LMap.addLayer at hf ⊢
    simp only at hf ⊢
    rw [UMap.find?_emplace'] at hf
    rw [List.length_append, List.length_singleton]
    split at hf
    · simp only [Option.some.injEq] at hf
      omega
    · have := hb id i hf
      omega

/-- A number looked up after reading is that of the first row with it. -/
theorem c112_lookup (m m' : LMap) (file : Bytes) (b : Bool) (h : parseMapFile m (some file) = .ok (m', b)) (id : Int) :
    m'.getLayer id = m'.layers.find? fun r => r.layerId == id := by
  have key : ∀ (ls : List Bytes) (m m' : LMap), LOk m → LBound m → parseRows m ls = .ok (m', b) → LOk m' := by
    intro ls
    induction ls with
    | nil =>
      intro m m' h1 _ h
      simp only [parseRows, Res.ok.injEq, Prod.mk.injEq] at h
      exact h.1 ▸ h1
    | cons l ls ih =>
      intro m m' h1 h2 h
      rw [parseRows] at h
      by_cases h0 : l = []
      · rw [if_pos h0] at h
        exact ih m m' h1 h2 h
      · rw [if_neg h0] at h
        by_cases h1' : l.head? = some 35
        · rw [if_pos h1'] at h
          exact ih m m' h1 h2 h
        · rw [if_neg h1'] at h
          cases hp : parseRow l with
          | ub => rw [hp] at h; simp at h
          | exn => rw [hp] at h; simp at h
          | ok o =>
            rw [hp] at h
            cases o with
            | none =>
              simp only [Res.bind_ok, Res.ok.injEq, Prod.mk.injEq] at h
              exact h.1 ▸ h1
            | some r =>
              simp only [Res.bind_ok] at h
              exact ih _ m' (addLayer_ok h1 h2 r).1 (addLayer_ok h1 h2 r).2 h
  exact key _ _ _ (fun id => rfl) (fun id i h => by cases h) h id

/-! ## where the property fails -/

/-- A row whose layer number is no number throws instead of being refused. -/
theorem c112_exn_refuted {l n k a b t : Bytes} (h : Items l [n, k, a, b, t]) (ha : ∀ c, a.head? = some c → c ≠ 43 ∧ c ≠ 45 ∧ isDig c = false ∧ isSpace c = false) :
    parseRow l = .exn := by
  have hs : stoi a = .exn := by
    unfold stoi stol
    cases a with
    | nil => rfl
    | cons c a =>
      have hc := ha c rfl
      rw [List.dropWhile_cons_of_neg (by rw [hc.2.2.2]; simp)]
      have e : (c :: a).takeWhile isDig = [] := List.takeWhile_cons_of_neg (by rw [hc.2.2.1]; simp)
      simp only
      split
      · rfl
      · next h =>
        exfalso
        split at h
        · next h' => exact hc.2.1 (List.cons.inj h').1
        · next h' => exact hc.1 (List.cons.inj h').1
        · rw [e, if_pos rfl] at h; cases h
  unfold parseRow
  rw [split_items h]
  simp only
  rw [hs]
  rfl

/-- What follows the digits of a layer number is ignored. -/
theorem c112_junk_refuted {l l' k a b t j : Bytes} {r : LayerRow} (h : Items l [r.name, k, a, b, t]) (hr : RowLine l r)
    (hj : ∀ c, j.head? = some c → isDig c = false) (h' : Items l' [r.name, k, a ++ j, b, t]) : parseRow l' = .ok (some r) := by
  obtain ⟨k', a', b', t', e, hi, hk, ha, hb, hA, hB, ht, he⟩ := hr
  have := items_len h hi
  simp only [List.cons.injEq, and_true] at this
  obtain ⟨_, rfl, rfl, rfl, rfl⟩ := this
  have h1 := stoi_junk ha hA.1 hA.2 hj
  have h2 := stoi_junk hb hB.1 hB.2 (r := []) (by simp)
  rw [List.append_nil] at h2
  have h3 : stod (t' ++ e) = some r.thickness := stod_dec ht (by rcases he with rfl | rfl <;> simp [isDig])
  unfold parseRow
  rw [split_items h']
  simp only
  rw [h1, h2, h3]
  have hs : startsM k = r.conducting := by
    rw [Bool.eq_iff_iff, startsM_iff, hk]
  simp only [Res.bind_ok, orExn, hs]

/-- Every word that does not begin with `m` is taken for a dielectric, whatever it says. -/
theorem c112_kind_refuted {l k a b t : Bytes} {r : LayerRow} (hi : Items l [r.name, k, a, b, t]) (hk : ∀ c, k.head? = some c → c ≠ 109 ∧ c ≠ 77)
    (hr : r.conducting = false) (ha : IsInt a r.layerId) (hb : IsInt b r.dataType)
    (hA : -2 ^ 31 ≤ r.layerId ∧ r.layerId < 2 ^ 31) (hB : -2 ^ 31 ≤ r.dataType ∧ r.dataType < 2 ^ 31) (ht : IsDec t r.thickness) : parseRow l = .ok (some r) := by
  refine c112_row ⟨k, a, b, t, [], by rw [List.append_nil]; exact hi, ?_, ha, hb, hA, hB, ht, .inl rfl⟩
  rw [hr]
  simp only [Bool.false_eq_true, false_iff]
  rintro ⟨u, rfl | rfl⟩
  · exact (hk 109 rfl).1 rfl
  · exact (hk 77 rfl).2 rfl

/-- A line of blanks, or of a carriage return alone, makes the whole file rejected. -/
theorem c112_blank_refuted {ls more : List Bytes} {rs : List LayerRow} (h : MapLines ls rs) (n : Nat) (e : Bytes) (he : e = [32] ∨ e = [13])
    (hlf : ∀ x ∈ ls ++ (List.replicate n 32 ++ e) :: more, 10 ∉ x) (m : LMap) :
    ∃ m', parseMapFile m (some (joinLines (ls ++ (List.replicate n 32 ++ e) :: more))) = .ok (m', false) := by
  refine c112_reject h ?_ ?_ hlf m
  · rintro (h | h)
    · rcases he with rfl | rfl <;> simp at h
    · cases n with
      | zero => rcases he with rfl | rfl <;> simp at h
      | succ n => simp [List.replicate_succ] at h
  · intro ts hts
    rcases he with rfl | rfl
    · have : Items (List.replicate n 32 ++ [32]) [] := by
        rw [← List.replicate_succ']
        exact .nil (n + 1)
      rw [items_len hts this]
      simp
    · have : Items (List.replicate n 32 ++ ([13] ++ List.replicate 0 32)) [[13]] := .cons n (by simp) (by simp) (by simp) (.nil 0)
      rw [List.replicate_zero, List.append_nil] at this
      rw [items_len hts this]
      simp

/-- After a layer map file that is rejected or throws, the name of the database is taken: a second import is refused whatever the file. -/
theorem c112_name_refuted (dbs : List String) (name path : String) (file file' : Option Bytes) (hn : name ∉ dbs) (hp : path ≠ "")
    (hf : ∀ m, parseMapFile {} file ≠ .ok (m, true)) :
    (∀ rows, (importRows dbs name true path file).2 ≠ .ok (some rows)) ∧
      (importRows (importRows dbs name true path file).1 name true path file').2 = .ok none := by
  have e : importRows dbs name true path file = (name :: dbs, (parseMapFile {} file).bind fun x => .ok (if x.2 then some (some x.1.layers) else none)) := by
    unfold importRows
    rw [if_pos rfl, if_neg hn, if_neg hp]
  rw [e]
  constructor
  · intro rows
    simp only
    cases hm : parseMapFile {} file with
    | ub => simp
    | exn => simp
    | ok x =>
      obtain ⟨m, b⟩ := x
      cases b with
      | true => exact absurd hm (hf m)
      | false => simp
  · unfold importRows
    simp

/-- Files that cannot be read change nothing: neither the rows there are, nor the databases. -/
theorem c112_unread (m : LMap) (dbs : List String) (name path : String) (file : Option Bytes) :
    parseMapFile m none = .ok (m, false) ∧ importRows dbs name false path file = (dbs, .ok none) := ⟨rfl, rfl⟩

/-- With a file of rows the import has exactly these rows. -/
theorem c112_import {ls : List Bytes} {rs : List LayerRow} (h : MapLines ls rs) (hne : ls ≠ []) (hlf : ∀ l ∈ ls, 10 ∉ l)
    (dbs : List String) (name path : String) (hn : name ∉ dbs) (hp : path ≠ "") :
    importRows dbs name true path (some (joinLines ls)) = (name :: dbs, .ok (some (some rs))) := by
  obtain ⟨m, hm, hl⟩ := c112_file h hne hlf {}
  unfold importRows
  rw [if_pos rfl, if_neg hn, if_neg hp, hm]
  simp [hl]

/-! ## examples -/

/-- `M1 metal 7 0 0.5` -/
def exMLine : Bytes := [77, 49, 32, 109, 101, 116, 97, 108, 32, 55, 32, 48, 32, 48, 46, 53]
def exMRow : LayerRow := ⟨[77, 49], true, 7, 0, 1 / 2⟩

theorem exMItems : Items exMLine [[77, 49], [109, 101, 116, 97, 108], [55], [48], [48, 46, 53]] := by
  rw [← split_iff]
  decide +kernel

theorem exMRowLine : RowLine exMLine exMRow := by
  refine ⟨[109, 101, 116, 97, 108], [55], [48], [48, 46, 53], [], exMItems, ?_, ?_, ?_, ?_, ?_, ?_, .inl rfl⟩
  · exact ⟨fun _ => ⟨[101, 116, 97, 108], .inl rfl⟩, fun _ => rfl⟩
  · exact ⟨[], 1, [7], .inl ⟨rfl, rfl⟩, by simp, by simp, rfl, by decide⟩
  · exact ⟨[], 1, [0], .inl ⟨rfl, rfl⟩, by simp, by simp, rfl, by decide⟩
  · decide
  · decide
  · exact ⟨[], 1, [0], [5], true, .inl ⟨rfl, rfl⟩, by simp, by simp, by simp, by simp, rfl, by norm_num [exMRow, dval, Nat.ofDigits]⟩

theorem exMapLines : MapLines [exMLine, [35, 32], []] [exMRow] :=
  .row (by rintro (h | h) <;> simp [exMLine] at h) exMRowLine (.idle (.inr rfl) (.idle (.inl rfl) .nil))

example : ∃ m', parseMapFile {} (some (joinLines [exMLine, [35, 32], []])) = .ok (m', true) ∧ m'.layers = [exMRow] :=
  c112_file exMapLines (by simp) (by decide) {}

example (m : LMap) : ∃ m', parseMapFile m (some (joinLines ([exMLine] ++ [120] :: []))) = .ok (m', false) :=
  c112_reject (.row (by rintro (h | h) <;> simp [exMLine] at h) exMRowLine .nil) (by rintro (h | h) <;> simp at h)
    (fun ts h => by rw [← split_iff] at h; rw [← h]; decide) (by decide) m

example (m m' : LMap) (h : parseMapFile m (some (joinLines [exMLine, []])) = .ok (m', true)) :
    List.Forall₂ (fun l r => ∃ k a b t, Items l [r.name, k, a, b, t]) [exMLine] m'.layers :=
  c112_accept m m' [exMLine, []] (by simp) (by decide) h

/-- `M1 metal x 0 1` -/
example : parseRow [77, 49, 32, 109, 32, 120, 32, 48, 32, 49] = .exn :=
  c112_exn_refuted (n := [77, 49]) (k := [109]) (a := [120]) (b := [48]) (t := [49]) ((split_iff _ _).1 (by decide +kernel)) (by simp [isDig, isSpace])

/-- `M1 metal 7x 0 0.5` -/
example : parseRow [77, 49, 32, 109, 101, 116, 97, 108, 32, 55, 120, 32, 48, 32, 48, 46, 53] = .ok (some exMRow) :=
  c112_junk_refuted (j := [120]) (r := exMRow) exMItems exMRowLine (by simp [isDig]) ((split_iff _ _).1 (by decide +kernel))

example (m : LMap) : ∃ m', parseMapFile m (some (joinLines ([exMLine] ++ (List.replicate 2 32 ++ [13]) :: [exMLine]))) = .ok (m', false) :=
  c112_blank_refuted (.row (by rintro (h | h) <;> simp [exMLine] at h) exMRowLine .nil) 2 [13] (.inr rfl) (by decide) m

example : importRows ["a"] "b" false "map" (some exMLine) = (["a"], .ok none) := (c112_unread {} ["a"] "b" "map" (some exMLine)).2

example (file' : Option Bytes) : (importRows (importRows [] "a" true "map" none).1 "a" true "map" file').2 = .ok none :=
  (c112_name_refuted [] "a" "map" none file' (by simp) (by decide) (by intro m h; cases h)).2

end Ecad.Gds
