import Verif.Ctm.DataProps
/-!
C110: packages of chip thermal models.
-/
namespace Ecad.Ctm

theorem find_put (d : Dir) (n b n' : Bytes) : UMap.find? (d.put n b) n' = if n = n' then some b else UMap.find? d n' := by
  unfold Dir.put
  rw [UMap.find?_append, UMap.find?_cons, UMap.find?_nil]
  by_cases h : n = n'
  · subst h
    rw [if_pos rfl, if_pos rfl]
    have : UMap.find? (UMap.erase d n) n = none := by
      rw [UMap.find?_eq_none_iff]
      unfold UMap.keys UMap.erase
      simp
    rw [this]
    rfl
  · rw [if_neg h, if_neg h, Option.or_none]
    unfold UMap.erase UMap.find?
    rw [List.find?_filter]
    congr 2
    funext e
    by_cases he : e.1 = n'
    · have : e.1 ≠ n := fun h2 => h (h2 ▸ he)
      simp [he, Ne.symm h]
    · simp [he]

theorem fPower_inj {n m : Nat} (h : fPower n = fPower m) : n = m := by
  unfold fPower at h
  have h1 := List.append_cancel_right h
  have h2 := List.append_cancel_left h1
  rw [← digitsVal_digs n, h2, digitsVal_digs]

theorem fPower_header (n : Nat) : fPower n ≠ fHeader := by unfold fPower fHeader; simp
theorem fPower_density (n : Nat) : fPower n ≠ fDensity := by unfold fPower fDensity; simp

/-- writing the powers -/
theorem genPowers_spec (f : Flt ℚ) (table : List (ℚ × Grid2 ℚ)) (ts : List ℚ) (ht : ∀ t ∈ ts, UMap.find? table t ≠ none) (i : Nat) (d : Dir) :
    (genPowers f table i ts d).2 = true ∧
    (∀ n, (∀ j, j < ts.length → n ≠ fPower (i + j + 1)) → UMap.find? (genPowers f table i ts d).1 n = UMap.find? d n) ∧
    ∀ j t, ts[j]? = some t → UMap.find? (genPowers f table i ts d).1 (fPower (i + j + 1)) = (UMap.find? table t).map (writePower f) := by
  induction ts generalizing i d with
  | nil => exact ⟨rfl, fun _ _ => rfl, fun j t h => by simp at h⟩
  | cons t ts ih =>
    unfold genPowers
    cases hg : UMap.find? table t with
    | none => exact absurd hg (ht t (by simp))
    | some g =>
      dsimp only
      obtain ⟨h1, h2, h3⟩ := ih (fun t ht' => ht t (by simp [ht'])) (i + 1) (d.put (fPower (i + 1)) (writePower f g))
      refine ⟨h1, ?_, ?_⟩
      · intro n hn
        rw [h2 n fun j hj => ?_, find_put, if_neg fun h => hn 0 (by simp) h.symm]
        have := hn (j + 1) (by simp; omega)
        rwa [show i + (j + 1) + 1 = i + 1 + j + 1 by omega] at this
      · intro j t' hj
        cases j with
        | zero =>
          rw [List.getElem?_cons_zero] at hj
          injection hj with hj
          subst hj
          rw [h2 _ fun j _ h => ?_, find_put, if_pos rfl, hg]
          · rfl
          · have := fPower_inj h; omega
        | succ j =>
          rw [List.getElem?_cons_succ] at hj
          have := h3 j t' hj
          rwa [show i + 1 + j + 1 = i + (j + 1) + 1 by omega] at this

/-- reading the powers: a later sample of the same temperature is not kept -/
theorem readPowers_spec (f : Flt ℚ) (d : Dir) (s : Nat × Nat) (ts : List ℚ) (i : Nat) (table : List (ℚ × Grid2 ℚ)) (data : Nat → Bytes)
    (hd : ∀ j, j < ts.length → UMap.find? d (fPower (i + j + 1)) = some (data j)) :
    ∃ table', readPowers f d s i ts table = some table' ∧ ∀ t, UMap.find? table' t =
      (UMap.find? table t).or ((ts.findIdx? fun x => decide (x = t)).map fun j => parsePower f (data j) (newGrid s)) := by
  induction ts generalizing i table data with
  | nil => exact ⟨table, rfl, fun t => by simp⟩
  | cons t0 ts ih =>
    unfold readPowers
    have h0 := hd 0 (by simp)
    rw [Nat.add_zero] at h0
    rw [h0]
    dsimp only
    obtain ⟨table', e, h⟩ := ih (i + 1) (UMap.emplace table t0 (parsePower f (data 0) (newGrid s))).1 (fun j => data (j + 1)) (by
      intro j hj
      have := hd (j + 1) (by simp; omega)
      rwa [show i + (j + 1) + 1 = i + 1 + j + 1 by omega] at this)
    refine ⟨table', e, fun t => ?_⟩
    rw [h t, List.findIdx?_cons]
    have hem : UMap.find? (UMap.emplace table t0 (parsePower f (data 0) (newGrid s))).1 t =
        (UMap.find? table t).or (if t0 = t then some (parsePower f (data 0) (newGrid s)) else none) := by
      unfold UMap.emplace
      by_cases hc : UMap.count table t0 = true
      · rw [if_pos hc]
        by_cases ht : t0 = t
        · subst ht
          have : UMap.find? table t0 ≠ none := by
            rw [Ne, UMap.find?_eq_none_iff, not_not, ← UMap.count_iff_mem_keys]; exact hc
          obtain ⟨g, hg⟩ := Option.ne_none_iff_exists'.1 this
          rw [hg]; rfl
        · rw [if_neg ht, Option.or_none]
      · rw [if_neg hc, UMap.find?_append, UMap.find?_cons, UMap.find?_nil]
    rw [hem]
    by_cases ht : t0 = t
    · subst ht
      cases UMap.find? table t0 <;> simp
    · simp only [if_neg ht, Option.or_none, ht, decide_false, Bool.false_eq_true, if_false, Option.map_map]
      rfl

theorem genDensities_spec (m : Model) (D : Bytes → Grid2 ℚ) (ls : List (Bytes × ℚ)) (h : ∀ l ∈ ls, UMap.find? m.densities l.1 = some (some (D l.1))) :
    genDensities m ls = some (ls.map fun l => D l.1) := by
  induction ls with
  | nil => rfl
  | cons l ls ih =>
    unfold genDensities
    rw [h l (by simp), ih (fun l hl => h l (by simp [hl]))]
    rfl

theorem byName_spec (G : Bytes → Grid2 ℚ) (ls : List (Bytes × ℚ)) (m : List (Bytes × Option (Grid2 ℚ))) (n : Bytes) :
    UMap.find? ((ls.zip (ls.map fun l => G l.1)).foldl (fun m e => (UMap.emplace m e.1.1 (some e.2)).1) m) n =
      (UMap.find? m n).or (if n ∈ ls.map Prod.fst then some (some (G n)) else none) := by
  induction ls generalizing m with
  | nil => simp
  | cons l ls ih =>
    rw [List.map_cons, List.zip_cons_cons, List.foldl_cons, ih]
    have hem : UMap.find? (UMap.emplace m l.1 (some (G l.1))).1 n = (UMap.find? m n).or (if l.1 = n then some (some (G l.1)) else none) := by
      unfold UMap.emplace
      by_cases hc : UMap.count m l.1 = true
      · rw [if_pos hc]
        by_cases ht : l.1 = n
        · subst ht
          have : UMap.find? m l.1 ≠ none := by
            rw [Ne, UMap.find?_eq_none_iff, not_not, ← UMap.count_iff_mem_keys]; exact hc
          obtain ⟨g, hg⟩ := Option.ne_none_iff_exists'.1 this
          rw [hg]; rfl
        · rw [if_neg ht, Option.or_none]
      · rw [if_neg hc, UMap.find?_append, UMap.find?_cons, UMap.find?_nil]
    rw [hem]
    by_cases ht : l.1 = n
    · subst ht
      cases UMap.find? m l.1 <;> simp
    · rw [if_neg ht, Option.or_none]
      congr 1
      by_cases hn : n ∈ ls.map Prod.fst
      · rw [if_pos hn, if_pos (by simp only [List.map_cons, List.mem_cons]; exact Or.inr hn)]
      · rw [if_neg hn, if_neg (by simp only [List.map_cons, List.mem_cons, not_or]; exact ⟨fun h => ht h.symm, hn⟩)]

/-- models that can be written: a header that can be read back, powers for all temperatures, densities for all layers -/
structure Packable (rnd : ℚ → Int) (m : Model) (P : ℚ → Grid2 ℚ) (D : Bytes → Grid2 ℚ) : Prop where
  header : Writable rnd m.header
  powers : ∃ table, m.powers = some table ∧ ∀ t ∈ m.header.temps, UMap.find? table t = some (P t)
  layers : m.header.layers ≠ []
  densities : ∀ l ∈ m.header.layers, UMap.find? m.densities l.1 = some (some (D l.1))
  sized : ∀ l ∈ m.header.layers, (D l.1).w = m.header.tiles.1 ∧ (D l.1).h = m.header.tiles.2 ∧ (D l.1).cells.length = m.header.tiles.1 * m.header.tiles.2

variable {rnd : ℚ → Int} {sep : Nat → Bool}

/-- what is read of a header, with some text and some vias -/
def got (rnd : ℚ → Int) (h : Header) (hd : Bytes) (vs : List (Bytes × Bytes × Bytes)) : Header := { reread rnd h with head := hd, vias := vs }

/-- what comes back of a package, if its header is read -/
theorem package_read (f : Flt ℚ) (lin : Nat → Nat → Nat → Nat → Nat) (m : Model) (P : ℚ → Grid2 ℚ) (D : Bytes → Grid2 ℚ) {hd : Bytes} {vs : List (Bytes × Bytes × Bytes)}
    (hread : read sep (write rnd m.header) = .ok (some (got rnd m.header hd vs))) (htemps : 5 ≤ m.header.temps.length)
    (hpow : ∃ table, m.powers = some table ∧ ∀ t ∈ m.header.temps, UMap.find? table t = some (P t)) (hlay : m.header.layers ≠ [])
    (hden : ∀ l ∈ m.header.layers, UMap.find? m.densities l.1 = some (some (D l.1)))
    (hsized : ∀ l ∈ m.header.layers, (D l.1).w = m.header.tiles.1 ∧ (D l.1).h = m.header.tiles.2 ∧ (D l.1).cells.length = m.header.tiles.1 * m.header.tiles.2)
    (hl : ∀ x y, x < m.header.tiles.1 → y < m.header.tiles.2 → lin m.header.tiles.1 m.header.tiles.2 x y < m.header.tiles.1 * m.header.tiles.2) (d : Dir) :
    ∃ d' m' table, generate rnd f lin m d = .ok (d', true) ∧ make sep f d' = .ok (some m') ∧ m'.header = got rnd m.header hd vs ∧ m'.powers = some table ∧
      (∀ t ∈ m.header.temps, ∃ t0, m.header.temps.find? (fun x => decide (r6 rnd x = r6 rnd t)) = some t0 ∧
        UMap.find? table (r6 rnd t) = some ⟨m.header.tiles.1, m.header.tiles.2,
          ((P t0).cells.map f.narrow).take (m.header.tiles.1 * m.header.tiles.2) ++ List.replicate (m.header.tiles.1 * m.header.tiles.2 - (P t0).cells.length) 0⟩) ∧
      ∀ l ∈ m.header.layers, UMap.find? m'.densities l.1 =
        some (some ⟨m.header.tiles.1, m.header.tiles.2, (order m.header.tiles.1 m.header.tiles.2).map fun p => f.narrow ((D l.1).get lin p)⟩) := by
  obtain ⟨table, htab, hP⟩ := hpow
  have hts : ∀ t ∈ m.header.temps, UMap.find? table t ≠ none := fun t ht => by rw [hP t ht]; simp
  obtain ⟨g1, g2, g3⟩ := genPowers_spec f table m.header.temps hts 0 (d.put fHeader (write rnd m.header))
  have hD := genDensities_spec m D m.header.layers hden
  have hsz : Sized m.header.tiles.1 m.header.tiles.2 (m.header.layers.map fun l => D l.1) := by
    intro g hg
    obtain ⟨l, hl, rfl⟩ := List.mem_map.1 hg
    exact hsized l hl
  have hsz0 : Sized m.header.tiles.1 m.header.tiles.2 (((got rnd m.header hd vs).layers).map fun _ => newGrid m.header.tiles) := by
    intro g hg
    obtain ⟨l, hl, rfl⟩ := List.mem_map.1 hg
    exact ⟨rfl, rfl, by simp [newGrid]⟩
  obtain ⟨b, hb1, hb2⟩ := c109_density_partial f lin m.header.resolution (m.header.size.getD 0 0, m.header.size.getD 1 0) m.header.tiles.1 m.header.tiles.2
    (m.header.layers.map fun l => D l.1) _ (by simp [hlay]) hsz hl hsz0 (by simp [got, reread])
  generalize hd' : (genPowers f table 0 m.header.temps (d.put fHeader (write rnd m.header))) = r at g1 g2 g3
  obtain ⟨d1, ok⟩ := r
  dsimp only at g1 g2 g3
  subst g1
  have hgen : generate rnd f lin m d = .ok (d1.put fDensity b, true) := by
    unfold generate
    rw [if_neg (by have := htemps; omega)]
    dsimp only
    simp only [htab, hd', hD, hb1, Res.bind_ok]
  have hfh : UMap.find? (d1.put fDensity b) fHeader = some (write rnd m.header) := by
    rw [find_put, if_neg (by decide), g2 _ (fun j _ h => fPower_header _ h.symm), find_put, if_pos rfl]
  have hfd : UMap.find? (d1.put fDensity b) fDensity = some b := by rw [find_put, if_pos rfl]
  have hfp : ∀ j, j < (got rnd m.header hd vs).temps.length → UMap.find? (d1.put fDensity b) (fPower (0 + j + 1)) =
      some (writePower f (P (m.header.temps.getD j 0))) := by
    intro j hj
    have hj : j < m.header.temps.length := by simpa [got, reread] using hj
    rw [find_put, if_neg fun h => fPower_density _ h.symm, g3 j m.header.temps[j] (List.getElem?_eq_getElem hj), hP _ (List.getElem_mem hj),
      List.getD_eq_getElem _ _ hj]
    rfl
  obtain ⟨table', ht1, ht2⟩ := readPowers_spec f (d1.put fDensity b) m.header.tiles (got rnd m.header hd vs).temps 0 [] _ hfp
  have hmake : make sep f (d1.put fDensity b) = .ok (some ⟨got rnd m.header hd vs, some table', byName (got rnd m.header hd vs).layers
      ((m.header.layers.map fun l => D l.1).map fun g => ⟨m.header.tiles.1, m.header.tiles.2, (order m.header.tiles.1 m.header.tiles.2).map fun p => f.narrow (g.get lin p)⟩)⟩) := by
    unfold make
    rw [hfh]
    dsimp only
    rw [hread, Res.bind_ok]
    dsimp only
    have e0 : (got rnd m.header hd vs).tiles = m.header.tiles := rfl
    rw [e0, ht1]
    dsimp only
    rw [hfd]
    dsimp only
    rw [hb2, Res.bind_ok]
  refine ⟨_, _, table', hgen, hmake, rfl, rfl, ?_, ?_⟩
  · intro t ht
    rw [ht2 (r6 rnd t), UMap.find?_nil, Option.none_or]
    have hex : ∃ t0, m.header.temps.find? (fun x => decide (r6 rnd x = r6 rnd t)) = some t0 := by
      rw [← Option.isSome_iff_exists, List.find?_isSome]
      exact ⟨t, ht, by simp⟩
    obtain ⟨t0, h0⟩ := hex
    refine ⟨t0, h0, ?_⟩
    have hidx : ∃ j, (got rnd m.header hd vs).temps.findIdx? (fun x => decide (x = r6 rnd t)) = some j ∧ m.header.temps[j]? = some t0 := by
      have e1 : (got rnd m.header hd vs).temps = m.header.temps.map (r6 rnd) := rfl
      rw [e1, List.findIdx?_map]
      clear * - h0
      generalize m.header.temps = ts at h0 ⊢
      induction ts with
      | nil => simp at h0
      | cons a l ih =>
        rw [List.find?_cons] at h0
        rw [List.findIdx?_cons]
        by_cases ha : r6 rnd a = r6 rnd t
        · simp only [ha, decide_true] at h0
          injection h0 with h0
          exact ⟨0, by simp [ha], by simp [h0]⟩
        · simp only [ha, decide_false] at h0
          obtain ⟨j, hj1, hj2⟩ := ih h0
          refine ⟨j + 1, ?_, by simpa using hj2⟩
          rw [hj1]
          simp [ha]
    obtain ⟨j, hj1, hj2⟩ := hidx
    rw [hj1, Option.map_some, List.getD_eq_getElem?_getD, hj2, Option.getD_some]
    congr 1
    unfold parsePower writePower newGrid
    congr 1
    have := fillPower_written f (List.replicate (m.header.tiles.1 * m.header.tiles.2) 0) (P t0).cells [] (by decide)
    rw [List.append_nil] at this
    dsimp only
    rw [this]
    simp
  · intro l hl
    have e1 : (m.header.layers.map fun l => D l.1).map (fun g => (⟨m.header.tiles.1, m.header.tiles.2, (order m.header.tiles.1 m.header.tiles.2).map fun p => f.narrow (g.get lin p)⟩ : Grid2 ℚ)) =
        (got rnd m.header hd vs).layers.map fun l => (⟨m.header.tiles.1, m.header.tiles.2, (order m.header.tiles.1 m.header.tiles.2).map fun p => f.narrow ((D l.1).get lin p)⟩ : Grid2 ℚ) := by
      simp [got, reread]
    dsimp only
    unfold byName
    rw [e1, byName_spec (fun n => ⟨m.header.tiles.1, m.header.tiles.2, (order m.header.tiles.1 m.header.tiles.2).map fun p => f.narrow ((D n).get lin p)⟩),
      UMap.find?_nil, Option.none_or, if_pos]
    simp only [got, reread, List.map_map, List.mem_map]
    exact ⟨l, hl, rfl⟩

/-- **C110**, for what the format can hold: a model that is written to a package and made again from it has the header of C74, for each
temperature the powers of the first temperature with the same six digits, filled up or cut to the tiles of the header, and for each layer
the densities column by column (C109). -/
theorem c110_package_partial (hs : Blank sep) (f : Flt ℚ) (lin : Nat → Nat → Nat → Nat → Nat) (m : Model) (P : ℚ → Grid2 ℚ) (D : Bytes → Grid2 ℚ)
    (hm : Packable rnd m P D) (hl : ∀ x y, x < m.header.tiles.1 → y < m.header.tiles.2 →
      lin m.header.tiles.1 m.header.tiles.2 x y < m.header.tiles.1 * m.header.tiles.2) (d : Dir) :
    ∃ d' m' table, generate rnd f lin m d = .ok (d', true) ∧ make sep f d' = .ok (some m') ∧ m'.header = reread rnd m.header ∧ m'.powers = some table ∧
      (∀ t ∈ m.header.temps, ∃ t0, m.header.temps.find? (fun x => decide (r6 rnd x = r6 rnd t)) = some t0 ∧
        UMap.find? table (r6 rnd t) = some ⟨m.header.tiles.1, m.header.tiles.2,
          ((P t0).cells.map f.narrow).take (m.header.tiles.1 * m.header.tiles.2) ++ List.replicate (m.header.tiles.1 * m.header.tiles.2 - (P t0).cells.length) 0⟩) ∧
      ∀ l ∈ m.header.layers, UMap.find? m'.densities l.1 =
        some (some ⟨m.header.tiles.1, m.header.tiles.2, (order m.header.tiles.1 m.header.tiles.2).map fun p => f.narrow ((D l.1).get lin p)⟩) :=
  package_read f lin m P D (c74_roundtrip_partial hs hm.header) hm.header.temps hm.powers hm.layers hm.densities hm.sized hl d

/-- **C110**, for temperatures that differ in their six digits, and powers and densities of the size of the header whose cells lie column by
column: everything but the header comes back as `float`. -/
theorem c110_data_partial (hs : Blank sep) (f : Flt ℚ) (m : Model) (P : ℚ → Grid2 ℚ) (D : Bytes → Grid2 ℚ) (hm : Packable rnd m P D)
    (ht : ∀ t ∈ m.header.temps, ∀ t' ∈ m.header.temps, r6 rnd t = r6 rnd t' → t = t')
    (hP : ∀ t ∈ m.header.temps, (P t).cells.length = m.header.tiles.1 * m.header.tiles.2) (d : Dir) :
    ∃ d' m' table, generate rnd f (fun _ h x y => x * h + y) m d = .ok (d', true) ∧ make sep f d' = .ok (some m') ∧
      m'.header = reread rnd m.header ∧ m'.powers = some table ∧
      (∀ t ∈ m.header.temps, UMap.find? table (r6 rnd t) = some ⟨m.header.tiles.1, m.header.tiles.2, (P t).cells.map f.narrow⟩) ∧
      ∀ l ∈ m.header.layers, UMap.find? m'.densities l.1 = some (some ⟨m.header.tiles.1, m.header.tiles.2, (D l.1).cells.map f.narrow⟩) := by
  have hlt : ∀ x y, x < m.header.tiles.1 → y < m.header.tiles.2 → x * m.header.tiles.2 + y < m.header.tiles.1 * m.header.tiles.2 := fun x y hx hy =>
    calc x * m.header.tiles.2 + y < x * m.header.tiles.2 + m.header.tiles.2 := by omega
      _ = (x + 1) * m.header.tiles.2 := by ring
      _ ≤ m.header.tiles.1 * m.header.tiles.2 := Nat.mul_le_mul_right _ hx
  obtain ⟨d', m', table, h1, h2, h3, h4, h5, h6⟩ := c110_package_partial (rnd := rnd) hs f (fun _ h x y => x * h + y) m P D hm hlt d
  refine ⟨d', m', table, h1, h2, h3, h4, ?_, ?_⟩
  · intro t htm
    obtain ⟨t0, e1, e2⟩ := h5 t htm
    have hq := List.find?_some e1
    have : t0 = t := ht t0 (List.mem_of_find?_eq_some e1) t htm (by simpa using hq)
    subst this
    rw [e2, hP t0 htm]
    simp [← hP t0 htm]
  · intro l hl
    rw [h6 l hl]
    congr 3
    have hD := hm.sized l hl
    apply List.ext_getElem?
    intro i
    rw [List.getElem?_map, List.getElem?_map]
    by_cases hi : i < m.header.tiles.1 * m.header.tiles.2
    · have hh : 0 < m.header.tiles.2 := by
        rcases Nat.eq_zero_or_pos m.header.tiles.2 with h0 | hh
        · rw [h0] at hi; simp at hi
        · exact hh
      have hx : i / m.header.tiles.2 < m.header.tiles.1 := by rw [Nat.div_lt_iff_lt_mul hh]; exact hi
      have hy : i % m.header.tiles.2 < m.header.tiles.2 := Nat.mod_lt _ hh
      have hi' : i = i / m.header.tiles.2 * m.header.tiles.2 + i % m.header.tiles.2 := by rw [Nat.mul_comm]; exact (Nat.div_add_mod i _).symm
      have ho := order_get m.header.tiles.1 m.header.tiles.2 _ _ hx hy
      rw [← hi'] at ho
      rw [ho, List.getElem?_eq_getElem (by omega)]
      simp only [Option.map_some]
      congr 2
      unfold Grid2.get
      rw [hD.2.1]
      dsimp only
      rw [← hi', List.getD_eq_getElem _ _ (by omega)]
    · rw [List.getElem?_eq_none (by rw [order_length]; omega), List.getElem?_eq_none (by omega)]
      rfl

/-- **C110 fails** for temperatures with the same six digits: the powers of the first stand for both. -/
theorem c110_temps_refuted (hs : Blank sep) (f : Flt ℚ) (m : Model) (P : ℚ → Grid2 ℚ) (D : Bytes → Grid2 ℚ) (hm : Packable rnd m P D)
    (t1 t2 : ℚ) (ts : List ℚ) (ht : m.header.temps = t1 :: ts) (h2 : t2 ∈ ts) (he : r6 rnd t1 = r6 rnd t2)
    (hP : ∀ t ∈ m.header.temps, (P t).cells.length = m.header.tiles.1 * m.header.tiles.2)
    (hne : (P t1).cells.map f.narrow ≠ (P t2).cells.map f.narrow) (d : Dir) :
    ∃ d' m' table g, generate rnd f (fun _ h x y => x * h + y) m d = .ok (d', true) ∧ make sep f d' = .ok (some m') ∧ m'.powers = some table ∧
      UMap.find? table (r6 rnd t2) = some g ∧ g.cells = (P t1).cells.map f.narrow ∧ g.cells ≠ (P t2).cells.map f.narrow := by
  have hlt : ∀ x y, x < m.header.tiles.1 → y < m.header.tiles.2 → x * m.header.tiles.2 + y < m.header.tiles.1 * m.header.tiles.2 := fun x y hx hy =>
    calc x * m.header.tiles.2 + y < x * m.header.tiles.2 + m.header.tiles.2 := by omega
      _ = (x + 1) * m.header.tiles.2 := by ring
      _ ≤ m.header.tiles.1 * m.header.tiles.2 := Nat.mul_le_mul_right _ hx
  obtain ⟨d', m', table, h1, h3, -, h4, h5, -⟩ := c110_package_partial (rnd := rnd) hs f (fun _ h x y => x * h + y) m P D hm hlt d
  obtain ⟨t0, e1, e2⟩ := h5 t2 (by rw [ht]; simp [h2])
  have : t0 = t1 := by
    rw [ht, List.find?_cons, he] at e1
    simp only [decide_true] at e1
    injection e1 with e1
    exact e1.symm
  subst this
  refine ⟨d', m', table, _, h1, h3, h4, e2, ?_, ?_⟩
  · have := hP t0 (by rw [ht]; simp)
    simp [← this]
  · have := hP t0 (by rw [ht]; simp)
    rw [← this, List.take_of_length_le (by simp)]
    simpa using hne

/-- **C110 fails** for powers of another size than the header says: they are written, read and taken, and are of the size of the header. -/
theorem c110_size_refuted (hs : Blank sep) (f : Flt ℚ) (lin : Nat → Nat → Nat → Nat → Nat) (m : Model) (P : ℚ → Grid2 ℚ) (D : Bytes → Grid2 ℚ)
    (hm : Packable rnd m P D) (hl : ∀ x y, x < m.header.tiles.1 → y < m.header.tiles.2 →
      lin m.header.tiles.1 m.header.tiles.2 x y < m.header.tiles.1 * m.header.tiles.2)
    (hP : ∀ t ∈ m.header.temps, (P t).cells.length ≠ m.header.tiles.1 * m.header.tiles.2) (d : Dir) :
    ∃ d' m' table, generate rnd f lin m d = .ok (d', true) ∧ make sep f d' = .ok (some m') ∧ m'.powers = some table ∧
      ∀ t ∈ m.header.temps, ∃ g, UMap.find? table (r6 rnd t) = some g ∧ ∀ t' ∈ m.header.temps, g.cells ≠ (P t').cells.map f.narrow := by
  obtain ⟨d', m', table, h1, h3, -, h4, h5, -⟩ := c110_package_partial (rnd := rnd) hs f lin m P D hm hl d
  refine ⟨d', m', table, h1, h3, h4, fun t ht => ?_⟩
  obtain ⟨t0, -, e2⟩ := h5 t ht
  refine ⟨_, e2, fun t' ht' h => hP t' ht' ?_⟩
  have := congrArg List.length h
  simp only [List.length_append, List.length_take, List.length_map, List.length_replicate] at this
  omega

/-- **C110 fails** for models of fewer than five temperatures: they are not written. -/
theorem c110_few_refuted (f : Flt ℚ) (lin : Nat → Nat → Nat → Nat → Nat) (m : Model) (h : m.header.temps.length < 5) (d : Dir) :
    generate rnd f lin m d = .ok (d, false) := by
  unfold generate
  rw [if_pos h]

/-- **C110 fails** for models without powers: the header is left in the directory. -/
theorem c110_left_refuted (f : Flt ℚ) (lin : Nat → Nat → Nat → Nat → Nat) (m : Model) (h : 5 ≤ m.header.temps.length) (hp : m.powers = none) (d : Dir) :
    ∃ d', generate rnd f lin m d = .ok (d', false) ∧ UMap.find? d' fHeader = some (write rnd m.header) := by
  refine ⟨d.put fHeader (write rnd m.header), ?_, by rw [find_put, if_pos rfl]⟩
  unfold generate
  rw [if_neg (by omega)]
  dsimp only
  rw [hp]

theorem genPowers_true (f : Flt ℚ) (table : List (ℚ × Grid2 ℚ)) : ∀ (ts : List ℚ) (i : Nat) (d d' : Dir), genPowers f table i ts d = (d', true) →
    ∀ t ∈ ts, ∃ g, UMap.find? table t = some g
  | [], _, _, _, _ => by simp
  | t :: ts, i, d, d', h => by
    rw [genPowers] at h
    cases hc : UMap.find? table t with
    | none => simp [hc] at h
    | some g =>
      simp only [hc] at h
      intro t' ht'
      rcases List.mem_cons.1 ht' with rfl | ht'
      · exact ⟨g, hc⟩
      · exact genPowers_true f table ts _ _ _ h t' ht'

theorem genDensities_some (m : Model) : ∀ (ls : List (Bytes × ℚ)) (gs : List (Grid2 ℚ)), genDensities m ls = some gs → ∀ l ∈ ls, ∃ g, UMap.find? m.densities l.1 = some (some g)
  | [], _, _ => by simp
  | l :: ls, gs, h => by
    rw [genDensities] at h
    split at h
    · rename_i g hc
      obtain ⟨gs', hg, -⟩ := Option.map_eq_some_iff.1 h
      intro l' hl'
      rcases List.mem_cons.1 hl' with rfl | hl'
      · exact ⟨g, hc⟩
      · exact genDensities_some m ls gs' hg l' hl'
    · cases h

theorem readPowers_some (f : Flt ℚ) (d : Dir) (s : Nat × Nat) : ∀ (ts : List ℚ) (i : Nat) (table t' : List (ℚ × Grid2 ℚ)), readPowers f d s i ts table = some t' →
    ∀ k < ts.length, ∃ b, UMap.find? d (fPower (i + k + 1)) = some b
  | [], _, _, _, _ => by simp
  | t :: ts, i, table, t', h => by
    rw [readPowers] at h
    cases hc : UMap.find? d (fPower (i + 1)) with
    | none => simp [hc] at h
    | some b =>
      simp only [hc] at h
      intro k hk
      cases k with
      | zero => exact ⟨b, hc⟩
      | succ k =>
        obtain ⟨b', hb⟩ := readPowers_some f d s ts _ _ _ h k (by simpa using hk)
        exact ⟨b', by rw [← hb]; congr 2; omega⟩

/-- **C110.** Success is said only for whole models: at least five temperatures, powers for each of them, densities for each layer. -/
theorem c110_whole (f : Flt ℚ) (lin : Nat → Nat → Nat → Nat → Nat) (m : Model) (d d' : Dir) (h : generate rnd f lin m d = .ok (d', true)) :
    5 ≤ m.header.temps.length ∧ (∃ table, m.powers = some table ∧ ∀ t ∈ m.header.temps, ∃ g, UMap.find? table t = some g) ∧
      ∀ l ∈ m.header.layers, ∃ g, UMap.find? m.densities l.1 = some (some g) := by
  unfold generate at h
  split at h
  · cases h
  · rename_i h5
    refine ⟨by omega, ?_⟩
    dsimp only at h
    cases hp : m.powers with
    | none => simp [hp] at h
    | some table =>
      simp only [hp] at h
      split at h
      · cases h
      · rename_i d1 hg
        refine ⟨⟨table, rfl, genPowers_true f table _ _ _ _ hg⟩, ?_⟩
        cases hd : genDensities m m.header.layers with
        | none => simp [hd] at h
        | some gs => exact genDensities_some m _ gs hd

/-- **C110.** A model is made only from whole packages: a header that is read, a power file for each of its temperatures, a density file. -/
theorem c110_files (f : Flt ℚ) (d : Dir) (m : Model) (h : make sep f d = .ok (some m)) :
    (∃ b, UMap.find? d fHeader = some b ∧ read sep b = .ok (some m.header)) ∧ (∀ k < m.header.temps.length, ∃ b, UMap.find? d (fPower (k + 1)) = some b) ∧
      ∃ b, UMap.find? d fDensity = some b := by
  unfold make at h
  cases hh : UMap.find? d fHeader with
  | none => simp [hh] at h
  | some hb =>
    simp only [hh] at h
    cases hr : read sep hb with
    | ub => simp [hr, Res.bind] at h
    | exn => simp [hr, Res.bind] at h
    | ok o =>
      rw [hr] at h
      cases o with
      | none => cases h
      | some hd =>
        simp only [Res.bind] at h
        cases hp : readPowers f d hd.tiles 0 hd.temps [] with
        | none => simp [hp] at h
        | some table =>
          simp only [hp] at h
          cases hb' : UMap.find? d fDensity with
          | none => simp [hb'] at h
          | some b =>
            simp only [hb'] at h
            split at h
            · simp only [Res.ok.injEq, Option.some.injEq] at h
              subst h
              refine ⟨⟨hb, rfl, hr⟩, fun k hk => ?_, ⟨b, rfl⟩⟩
              have := readPowers_some f d hd.tiles hd.temps 0 [] table hp k hk
              rwa [Nat.zero_add] at this
            all_goals cases h

/-! ### examples -/

/-- a model of two layers and five temperatures, two by one tiles -/
def exModel : Model where
  header := { exHeader with tiles := (2, 1) }
  powers := some [(25, ⟨2, 1, [1, 2]⟩), (50, ⟨2, 1, [3, 4]⟩), (75, ⟨2, 1, [5, 6]⟩), (100, ⟨2, 1, [7, 8]⟩), (125, ⟨2, 1, [9, 10]⟩)]
  densities := exHeader.layers.map fun l => (l.1, some ⟨2, 1, [l.1.length, 0]⟩)

example : ∃ D, Packable Rat.floor exModel (fun t => (UMap.find? (exModel.powers.getD []) t).getD ⟨0, 0, []⟩) D ∧
    (∀ t ∈ exModel.header.temps, ((UMap.find? (exModel.powers.getD []) t).getD ⟨0, 0, []⟩).cells.length = exModel.header.tiles.1 * exModel.header.tiles.2) ∧
    ∀ t ∈ exModel.header.temps, ∀ t' ∈ exModel.header.temps, r6 Rat.floor t = r6 Rat.floor t' → t = t' := by
  refine ⟨fun n => ⟨2, 1, [n.length, 0]⟩, ⟨?_, ⟨_, rfl, ?_⟩, by decide, ?_, ?_⟩, by decide +kernel, by decide +kernel⟩
  · exact
      { head := by decide
        headLine := by decide
        headPlain := by decide
        size := rfl
        temps := by decide
        tiles := by decide
        layers := by unfold Tok NumOk; decide +kernel
        tech := by unfold Tok; decide +kernel
        metals := by unfold Tok NumOk; decide +kernel
        vias := by unfold Tok; decide +kernel
        counts := by decide +kernel }
  · intro t ht
    have : t = 25 ∨ t = 50 ∨ t = 75 ∨ t = 100 ∨ t = 125 := by simpa [exModel, exHeader] using ht
    rcases this with rfl | rfl | rfl | rfl | rfl <;> rfl
  · intro l hl
    have : l = ([77, 49], 3 / 2) ∨ l = ([86, 49], 1 / 4) := by simpa [exModel, exHeader] using hl
    rcases this with rfl | rfl <;> rfl
  · intro l _; exact ⟨rfl, rfl, rfl⟩

/-- what comes back: `exFlt` keeps the whole numbers -/
example : (match generate Rat.floor exFlt (fun _ h x y => x * h + y) exModel [] with
    | .ok (d, ok) => ((ok, d.length), match make exSep exFlt d with
      | .ok (some m) => ((m.powers.getD []).map fun e => (e.1, e.2.cells), m.densities.map fun e => (e.1, e.2.map Grid2.cells))
      | _ => ([], []))
    | _ => ((false, 0), ([], []))) =
  ((true, 7), ([(25, [1, 2]), (50, [3, 4]), (75, [5, 6]), (100, [7, 8]), (125, [9, 10])], [([77, 49], some [2, 0]), ([86, 49], some [2, 0])])) := by decide +kernel

end Ecad.Ctm
