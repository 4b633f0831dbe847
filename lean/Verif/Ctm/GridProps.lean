import Verif.Ctm.GridModel
import Verif.Ctm.StackProps
import Mathlib.Data.List.Induction
import Mathlib.Data.List.Nodup
import Mathlib.Data.List.Chain
import Mathlib.Algebra.BigOperators.Ring.List
/-!
C75: grid thermal models from chip thermal models and back.
-/
namespace Ecad.Ctm

variable {K : Type} [Field K] [LinearOrder K] {P : Type}

/-! ## appending layers -/

/-- name of the layer above -/
def above (ls : List (GLay K P)) : Nat → Option String
  | 0 => none
  | k + 1 => ls[k]?.map GLay.name

/-- name of the layer below -/
def below (ls : List (GLay K P)) (k : Nat) : Option String := ls[k + 1]?.map GLay.name

/-- a layer between its neighbours -/
def linked (ls : List (GLay K P)) (k : Nat) (l : GLay K P) : GLay K P :=
  { l with top := (above ls k).getD l.top, bot := (below ls k).getD l.bot }

theorem append_all (size : Nat × Nat) (ls : List (GLay K P)) (ht : ∀ l ∈ ls, ¬ l.thick < 0) (hs : ∀ l ∈ ls, l.size = size) :
    (ls.foldl (appendLayer size) []).length = ls.length ∧
    ∀ (k : Nat) (l : GLay K P), ls[k]? = some l → (ls.foldl (appendLayer size) [])[k]? = some (linked ls k l) := by
  induction ls using List.reverseRecOn with
  | nil => simp
  | append_singleton ls a ih =>
    obtain ⟨ih1, ih2⟩ := ih (fun l hl => ht l (by simp [hl])) (fun l hl => hs l (by simp [hl]))
    rw [List.foldl_append, List.foldl_cons, List.foldl_nil]
    generalize ls.foldl (appendLayer size) [] = R at ih1 ih2
    rw [appendLayer, if_neg (ht a (by simp)), if_neg (by simp [hs a (by simp)])]
    rcases List.eq_nil_or_concat' ls with rfl | ⟨ms, b, rfl⟩
    · have : R = [] := List.eq_nil_of_length_eq_zero (by simpa using ih1)
      subst this
      refine ⟨rfl, ?_⟩
      intro k l hk
      cases k with
      | zero =>
        simp only [List.nil_append, List.getElem?_cons_zero, Option.some.injEq] at hk
        subst hk
        rfl
      | succ k => simp at hk
    · rcases List.eq_nil_or_concat' R with rfl | ⟨R', r, rfl⟩
      · simp at ih1
      · have hlen : R'.length = ms.length := by simpa using ih1
        have hr := ih2 ms.length b (by simp)
        rw [← hlen, List.getElem?_append_right (by simp)] at hr
        simp only [Nat.sub_self, List.getElem?_cons_zero, Option.some.injEq] at hr
        rw [hlen] at hr
        simp only [List.getLast?_concat, List.dropLast_concat]
        refine ⟨by simp [hlen], ?_⟩
        intro k l hk
        rcases Nat.lt_trichotomy k ms.length with hlt | rfl | hgt
        · rw [List.getElem?_append_left (by omega)]
          have hk' : (ms ++ [b])[k]? = some l := by
            rw [← hk, List.getElem?_append_left (l₁ := ms ++ [b]) (by simp; omega)]
          have := ih2 k l hk'
          rw [List.getElem?_append_left (by omega)] at this
          rw [this, Option.some.injEq]
          unfold linked
          have h1 : above (ms ++ [b] ++ [a]) k = above (ms ++ [b]) k := by
            cases k with
            | zero => rfl
            | succ k => rw [above, above, List.getElem?_append_left (l₁ := ms ++ [b]) (by simp; omega)]
          have h2 : below (ms ++ [b] ++ [a]) k = below (ms ++ [b]) k := by
            rw [below, below, List.getElem?_append_left (l₁ := ms ++ [b]) (by simp; omega)]
          rw [h1, h2]
        · have hl : l = b := by
            rw [List.getElem?_append_left (by simp), List.getElem?_append_right (by simp)] at hk
            simpa using hk.symm
          subst hl
          rw [← hlen, List.getElem?_append_right (by simp), hr, hlen]
          simp only [Nat.sub_self, List.getElem?_cons_zero, Option.some.injEq]
          unfold linked
          have h1 : above (ms ++ [l] ++ [a]) ms.length = above (ms ++ [l]) ms.length := by
            cases h : ms.length with
            | zero => rfl
            | succ k => rw [above, above, List.getElem?_append_left (l₁ := ms ++ [l]) (by simp; omega)]
          have h2 : below (ms ++ [l] ++ [a]) ms.length = some a.name := by
            rw [below, List.getElem?_append_right (by simp)]
            simp
          rw [h1, h2]
          rfl
        · have hk2 : k = ms.length + 1 := by
            have := (List.getElem?_eq_some_iff.1 hk).1
            simp at this
            omega
          subst hk2
          have hl : l = a := by
            rw [List.getElem?_append_right (by simp)] at hk
            simpa using hk.symm
          subst hl
          rw [List.getElem?_append_right (by omega), hlen, hr]
          simp only [Nat.add_sub_cancel_left, List.getElem?_cons_succ, List.getElem?_cons_zero, Option.some.injEq]
          unfold linked
          have h1 : above (ms ++ [b] ++ [l]) (ms.length + 1) = some b.name := by
            rw [above, List.getElem?_append_left (by simp), List.getElem?_append_right (by simp)]
            simp
          have h2 : below (ms ++ [b] ++ [l]) (ms.length + 1) = none := by
            rw [below, List.getElem?_eq_none (by simp)]
            rfl
          rw [h1, h2]
          rfl

/-! ## from chip models to grid models -/

theorem fracOf_size (tiles : Nat × Nat) {ds : List (String × Frac K)} (hd : ∀ d ∈ ds, (d.2.w, d.2.h) = tiles) (names : List String) :
    ((fracOf tiles ds names).w, (fracOf tiles ds names).h) = tiles := by
  unfold fracOf
  split
  · rename_i m hm
    have : m ∈ names.filterMap (densityOf ds) := by rw [hm]; simp
    rw [List.mem_filterMap] at this
    obtain ⟨n, _, hn⟩ := this
    unfold densityOf at hn
    rw [Option.map_eq_some_iff] at hn
    obtain ⟨d, h1, rfl⟩ := hn
    exact hd d (List.mem_of_find?_eq_some h1)
  · rfl

/-- C75: a grid model from a chip model has the layers of the stackup, in order, each with its name and thickness and between its
neighbours; the metal fractions are those of the chip model -/
theorem c75_layers {order : List String → List String} {tol : K} {fuel : Nat} {c : Chip K P} {st : List (SLay K)}
    (hb : build order tol c.metals c.vias c.tech fuel = some st) (hdev : lastMetal c.metals st ≠ "") (ht : ∀ s ∈ st, 0 ≤ s.thick * (1 / 1000000))
    (hd : ∀ d ∈ c.densities, (d.2.w, d.2.h) = c.tiles) :
    ∃ g, toGrid order tol fuel c = some (some g) ∧ g.size = c.tiles ∧ g.layers.length = st.length ∧
      ∀ (k : Nat) (s : SLay K), st[k]? = some s → ∃ l, g.layers[k]? = some l ∧ l.name = s.name ∧ l.thick = s.thick * (1 / 1000000) ∧
        l.mf = some (fracOf c.tiles c.densities s.names) ∧ l.powers = (if s.name = lastMetal c.metals st then c.powers.toList else []) ∧ l.isMetal = false ∧
        l.bot = ((st[k + 1]?.map SLay.name).getD "") ∧ (k = 0 → l.top = "") ∧ (∀ (j : Nat) (s' : SLay K), k = j + 1 → st[j]? = some s' → l.top = s'.name) := by
  unfold toGrid
  rw [hb]
  simp only [if_neg hdev]
  refine ⟨_, rfl, rfl, ?_⟩
  obtain ⟨h1, h2⟩ := append_all c.tiles (st.map (gridLayer c (lastMetal c.metals st))) (by
    intro l hl
    rw [List.mem_map] at hl
    obtain ⟨s, hs, rfl⟩ := hl
    exact not_lt.2 (ht s hs)) (by
    intro l hl
    rw [List.mem_map] at hl
    obtain ⟨s, hs, rfl⟩ := hl
    exact fracOf_size c.tiles hd s.names)
  refine ⟨by rw [h1, List.length_map], ?_⟩
  intro k s hs
  refine ⟨_, h2 k (gridLayer c (lastMetal c.metals st) s) (by rw [List.getElem?_map, hs]; rfl), rfl, rfl, rfl, rfl, rfl, ?_, ?_, ?_⟩
  · unfold linked below
    simp only [List.getElem?_map, Option.map_map]
    rfl
  · rintro rfl
    rfl
  · rintro j s' rfl hj
    unfold linked above
    simp only [List.getElem?_map, hj, Option.map_some, Option.getD_some]
    rfl

/-- C75: one density is taken as it is -/
theorem c75_one {tiles : Nat × Nat} {ds : List (String × Frac K)} {names : List String} {m : Frac K} (h : names.filterMap (densityOf ds) = [m]) :
    fracOf tiles ds names = m := by
  unfold fracOf
  rw [h]

theorem foldl_sum {α : Type} (f : α → K) (l : List α) (a : K) : l.foldl (fun s x => s + f x) a = a + (l.map f).sum := by
  induction l generalizing a with
  | nil => simp
  | cons x l ih => rw [List.foldl_cons, ih, List.map_cons, List.sum_cons, add_assoc]

/-- C75: several densities are added, up to 1; without any density there is no metal -/
theorem c75_many {tiles : Nat × Nat} {ds : List (String × Frac K)} {names : List String} (h : (names.filterMap (densityOf ds)).length ≠ 1) (x y : Nat) :
    (fracOf tiles ds names).val x y = min (((names.filterMap (densityOf ds)).map fun m => m.val x y).sum) 1 := by
  unfold fracOf
  split
  · rename_i hm
    rw [hm] at h
    simp at h
  · simp only
    rw [foldl_sum, zero_add]

variable [IsStrictOrderedRing K]

theorem totalThick_eq (ls : List (GLay K P)) : totalThick ls = (ls.map GLay.thick).sum := by
  unfold totalThick
  rw [foldl_sum, zero_add]

omit [LinearOrder K] [IsStrictOrderedRing K] in
/-- layers without gap add up -/
theorem telescope : ∀ (st : List (SLay K)) (a b : SLay K), (∀ (k : Nat) (a b : SLay K), st[k]? = some a → st[k + 1]? = some b → a.elev - a.thick = b.elev) →
    st.head? = some a → st.getLast? = some b → (st.map SLay.thick).sum = a.elev - (b.elev - b.thick) := by
  intro st
  induction st with
  | nil => intro a b _ h; simp at h
  | cons s st ih =>
    intro a b hc ha hb
    simp only [List.head?_cons, Option.some.injEq] at ha
    subst ha
    cases st with
    | nil =>
      simp only [List.getLast?_singleton, Option.some.injEq] at hb
      subst hb
      simp
    | cons t st =>
      rw [List.getLast?_cons_cons] at hb
      rw [List.map_cons, List.sum_cons, ih t b (fun k x y hx hy => hc (k + 1) x y hx hy) rfl hb, ← hc 0 s t rfl rfl]
      ring

/-- C75: the grid model is as thick as the chip, from the top of its highest to the bottom of its lowest layer -/
theorem c75_thickness {order : List String → List String} {tol : K} (htol : 0 ≤ tol) {fuel : Nat} {c : Chip K P} {st : List (SLay K)}
    (hb : build order tol c.metals c.vias c.tech fuel = some st) (hdev : lastMetal c.metals st ≠ "") (ht : ∀ s, st.getLast? = some s → 0 ≤ s.thick)
    (hd : ∀ d ∈ c.densities, (d.2.w, d.2.h) = c.tiles) {a b : SLay K} (ha : st.head? = some a) (hbot : st.getLast? = some b) :
    ∃ g, toGrid order tol fuel c = some (some g) ∧ totalThick g.layers = (a.elev - (b.elev - b.thick)) * (1 / 1000000) := by
  obtain ⟨hc, _⟩ := c40_stackup_partial htol hb
  have ht' : ∀ s ∈ st, 0 ≤ s.thick * (1 / 1000000) := by
    intro s hs
    obtain ⟨k, hk⟩ := List.getElem?_of_mem hs
    have hpos : 0 ≤ s.thick := by
      cases hn : st[k + 1]? with
      | some s' => exact htol.trans (hc k s s' hk hn).2.le
      | none =>
        refine ht s ?_
        rw [List.getElem?_eq_none_iff] at hn
        have := (List.getElem?_eq_some_iff.1 hk).1
        rw [List.getLast?_eq_getElem?, ← hk]
        congr 1
        omega
    positivity
  obtain ⟨g, g1, _, g3, g4⟩ := c75_layers hb hdev ht' hd
  refine ⟨g, g1, ?_⟩
  rw [totalThick_eq, ← telescope st a b (fun k x y hx hy => (hc k x y hx hy).1) ha hbot, ← List.sum_map_mul_right]
  congr 1
  refine List.ext_getElem? fun k => ?_
  rw [List.getElem?_map, List.getElem?_map]
  cases hk : st[k]? with
  | none =>
    rw [List.getElem?_eq_none_iff] at hk
    rw [List.getElem?_eq_none (by omega)]
    rfl
  | some s =>
    obtain ⟨l, l1, _, l3, _⟩ := g4 k s hk
    rw [l1, Option.map_some, Option.map_some, l3]

omit [IsStrictOrderedRing K] in
/-- C75: the power of the chip is in exactly one layer, that of the lowest metal, if the layers of the stackup have different names -/
theorem c75_power_partial {order : List String → List String} {tol : K} {fuel : Nat} {c : Chip K P} {st : List (SLay K)}
    (hb : build order tol c.metals c.vias c.tech fuel = some st) (hdev : lastMetal c.metals st ≠ "") (ht : ∀ s ∈ st, 0 ≤ s.thick * (1 / 1000000))
    (hd : ∀ d ∈ c.densities, (d.2.w, d.2.h) = c.tiles) (hn : (st.map SLay.name).Nodup) :
    ∃ g, toGrid order tol fuel c = some (some g) ∧ ∃ (k : Nat) (l : GLay K P), g.layers[k]? = some l ∧ l.name = lastMetal c.metals st ∧ l.powers = c.powers.toList ∧
      ∀ (j : Nat) (l' : GLay K P), g.layers[j]? = some l' → j ≠ k → l'.powers = [] := by
  obtain ⟨g, g1, _, g3, g4⟩ := c75_layers hb hdev ht hd
  refine ⟨g, g1, ?_⟩
  have hex : ∃ s ∈ st, s.name = lastMetal c.metals st := by
    unfold lastMetal at hdev ⊢
    split
    · rename_i s hs
      exact ⟨s, List.mem_reverse.1 (List.mem_of_find?_eq_some hs), rfl⟩
    · rename_i h
      rw [h] at hdev
      exact absurd rfl hdev
  obtain ⟨s, hs, hsn⟩ := hex
  obtain ⟨k, hk⟩ := List.getElem?_of_mem hs
  obtain ⟨l, l1, l2, _, _, l5, _⟩ := g4 k s hk
  refine ⟨k, l, l1, by rw [l2, hsn], by rw [l5, if_pos hsn], ?_⟩
  intro j l' hj hjk
  have hj' := (List.getElem?_eq_some_iff.1 hj).1
  have hst : st[j]? = some st[j] := List.getElem?_eq_getElem (by omega)
  obtain ⟨l'', m1, m2, _, _, m5, _⟩ := g4 j _ hst
  rw [hj, Option.some.injEq] at m1
  subst m1
  rw [m5, if_neg]
  intro he
  apply hjk
  have hk' := (List.getElem?_eq_some_iff.1 hk)
  refine (List.Nodup.getElem_inj_iff hn (hi := by simp; omega) (hj := by simpa using hk'.1)).1 ?_
  rw [List.getElem_map, List.getElem_map, he, hk'.2, hsn]

/-- a chip with two metals `A`, `B` at the same height and a lower metal `A_B` -/
def exClash : Chip ℚ Unit :=
  ⟨(1, 1), 1, 10, [⟨"A", 5, 1⟩, ⟨"B", 5, 1⟩, ⟨"A_B", 2, 1⟩], [], ["A", "B", "A_B"], [], some ()⟩

/-- C75 fails if the joined names of two layers coincide: the power is there twice -/
theorem c75_power_refuted : ((toGrid id (1 / 1000000) 1 exClash).map fun r => r.map fun g => g.layers.map fun l => (l.name, l.powers.length)) =
    some (some [("A_B", 1), ("A_B", 1)]) := by
  decide +kernel

/-! ## from grid models to chip models -/

omit [LinearOrder K] [IsStrictOrderedRing K] in
theorem stackOf_snd (e : K) (ls : List (GLay K P)) : (stackOf e ls).map Prod.snd = ls := by
  induction ls generalizing e with
  | nil => rfl
  | cons l ls ih => rw [stackOf, List.map_cons, ih]

omit [LinearOrder K] [IsStrictOrderedRing K] in
theorem stackOf_mem (e : K) (ls : List (GLay K P)) : ∀ p ∈ stackOf e ls, p.1.name = p.2.name ∧ p.1.thick = p.2.thick * 1000000 := by
  induction ls generalizing e with
  | nil => simp [stackOf]
  | cons l ls ih =>
    intro p hp
    rw [stackOf] at hp
    rcases List.mem_cons.1 hp with rfl | hp
    · exact ⟨rfl, rfl⟩
    · exact ih _ p hp

omit [LinearOrder K] [IsStrictOrderedRing K] in
theorem stackOf_chain (e : K) (ls : List (GLay K P)) : (stackOf e ls).IsChain fun p q => p.1.elev - p.1.thick = q.1.elev := by
  induction ls generalizing e with
  | nil => exact List.isChain_nil
  | cons l ls ih =>
    cases ls with
    | nil => exact List.isChain_singleton _
    | cons l' ls =>
      rw [stackOf]
      have := ih (e - l.thick * 1000000)
      rw [stackOf] at this ⊢
      rw [List.isChain_cons_cons]
      exact ⟨rfl, this⟩

omit [Field K] [LinearOrder K] [IsStrictOrderedRing K] in
theorem collect_all {f : String → Option (Option (K × K))} (T : List (Lay K)) (h : ∀ t ∈ T, f t.name = some (some (t.elev, t.thick))) :
    collect f (T.map Lay.name) = some T := by
  induction T with
  | nil => rfl
  | cons t T ih =>
    rw [List.map_cons, collect, h t (by simp), ih fun x hx => h x (by simp [hx])]
    rfl

omit [IsStrictOrderedRing K] in
theorem merge_single (tol : K) (T : List (Lay K)) (hc : T.IsChain fun a b => tol < |a.elev - b.elev|) : ∀ n, T.length ≤ n → merge tol n T = T.map fun a => (a, []) := by
  induction T with
  | nil =>
    intro n _
    cases n <;> rfl
  | cons a T ih =>
    intro n hn
    cases n with
    | zero => simp at hn
    | succ n =>
      rw [merge]
      have : takeSame tol a T = ([], T) := by
        cases T with
        | nil => rfl
        | cons b T =>
          rw [takeSame, if_neg (not_le.2 (List.isChain_cons_cons.1 hc).1)]
      rw [this, List.map_cons, ih (by
        cases T with
        | nil => exact List.isChain_nil
        | cons b T => exact (List.isChain_cons_cons.1 hc).2) n (by simp at hn; omega)]

omit [IsStrictOrderedRing K] in
theorem layersOf_single (order : List String → List String) (ho : ∀ n, order [n] = [n]) (T : List (Lay K)) (hc : T.IsChain fun a b => a.elev - a.thick = b.elev) :
    layersOf order (T.map fun a => (a, [])) = T.map fun a => ⟨a.name, a.elev, a.thick, [a.name]⟩ := by
  have hn : ∀ a : Lay K, namesOf (a, []) = [a.name] := by
    intro a
    simp [namesOf]
  have hj : ∀ n, joinNames order [n] = n := by
    intro n
    rw [joinNames, ho]
    simp
  induction T with
  | nil => rfl
  | cons a T ih =>
    cases T with
    | nil => simp [layersOf, hn, hj]
    | cons b T =>
      obtain ⟨h1, h2⟩ := List.isChain_cons_cons.1 hc
      have := ih h2
      rw [List.map_cons] at this ⊢
      rw [List.map_cons, layersOf, this, List.map_cons, hn, hj]
      simp only
      have h3 : a.elev - b.elev = a.thick := by rw [← h1]; ring
      rw [h3]
      rfl

omit [Field K] [LinearOrder K] [IsStrictOrderedRing K] in
theorem densityOf_append (ds : List (String × Frac K)) (n : String) (m : Frac K) (h : ∀ d ∈ ds, d.1 ≠ n) : densityOf (ds ++ [(n, m)]) n = some m := by
  unfold densityOf
  rw [List.find?_append, List.find?_eq_none.2 (by
    intro d hd
    simpa using h d hd)]
  simp

omit [Field K] [LinearOrder K] [IsStrictOrderedRing K] in
theorem densitiesOf_eq {K : Type} (ls : List (GLay K P)) (hn : (ls.map GLay.name).Nodup) (f : GLay K P → Frac K) (hm : ∀ l ∈ ls, l.mf = some (f l)) :
    densitiesOf ls = ls.map fun l => (l.name, f l) := by
  induction ls using List.reverseRecOn with
  | nil => rfl
  | append_singleton ls a ih =>
    rw [List.map_append, List.nodup_append] at hn
    obtain ⟨h1, _, h3⟩ := hn
    have ih' := ih h1 fun l hl => hm l (by simp [hl])
    unfold densitiesOf at ih' ⊢
    rw [List.foldl_append, ih', List.foldl_cons, List.foldl_nil, hm a (by simp)]
    simp only
    rw [if_neg, List.map_append]
    · rfl
    · unfold densityOf
      rw [List.find?_eq_none.2]
      · simp
      · intro d hd
        rw [List.mem_map] at hd
        obtain ⟨l, hl, rfl⟩ := hd
        simpa using h3 l.name (List.mem_map.2 ⟨l, hl, rfl⟩) a.name (by simp)

omit [Field K] [LinearOrder K] [IsStrictOrderedRing K] in
theorem densityOf_map {K : Type} (ls : List (GLay K P)) (hn : (ls.map GLay.name).Nodup) (f : GLay K P → Frac K) {l : GLay K P} (hl : l ∈ ls) :
    densityOf (ls.map fun l => (l.name, f l)) l.name = some (f l) := by
  unfold densityOf
  cases h : (ls.map fun l => (l.name, f l)).find? fun d => d.1 = l.name with
  | none =>
    rw [List.find?_eq_none] at h
    have := h (l.name, f l) (List.mem_map.2 ⟨l, hl, rfl⟩)
    simp at this
  | some d =>
    have h1 := List.mem_of_find?_eq_some h
    have h2 := List.find?_some h
    rw [List.mem_map] at h1
    obtain ⟨l', hl', rfl⟩ := h1
    have : l' = l := List.inj_on_of_nodup_map hn hl' hl (by simpa using h2)
    rw [this]
    rfl

/-- positions of the layers of a chip model made from a grid model -/
theorem toChip_resolve (e : K) {ls : List (GLay K P)} (hn : (ls.map GLay.name).Nodup)
    (htop : ∀ (k : Nat) (a b : GLay K P), ls[k]? = some a → ls[k + 1]? = some b → b.top = a.name ∧ a.bot = b.name)
    (hvia : ∀ (k : Nat) (l : GLay K P), ls[k]? = some l → l.isMetal = false →
      ∃ (j : Nat) (a b : GLay K P), k = j + 1 ∧ ls[j]? = some a ∧ a.isMetal = true ∧ ls[k + 1]? = some b ∧ b.isMetal = true)
    (n : Nat) : ∀ p ∈ stackOf e ls, resolve (((stackOf e ls).filter fun p => p.2.isMetal).map Prod.fst)
      (((stackOf e ls).filter fun p => !p.2.isMetal).map fun p => ⟨p.1.name, p.2.top, p.2.bot⟩) (n + 2) p.1.name = some (some (p.1.elev, p.1.thick)) := by
  have hsnd := stackOf_snd e ls
  have hmem := stackOf_mem e ls
  have hch := stackOf_chain e ls
  generalize stackOf e ls = S at *
  have hnd : (S.map fun p => p.1.name).Nodup := by
    have : (S.map fun p => p.1.name) = ls.map GLay.name := by
      rw [← hsnd, List.map_map]
      exact List.map_congr_left fun p hp => (hmem p hp).1
    rw [this]
    exact hn
  have hinj : ∀ p ∈ S, ∀ q ∈ S, p.1.name = q.1.name → p = q := fun p hp q hq h => List.inj_on_of_nodup_map hnd hp hq h
  have hmetal : ∀ p ∈ S, p.2.isMetal = true → ∀ m, resolve ((S.filter fun p => p.2.isMetal).map Prod.fst)
      ((S.filter fun p => !p.2.isMetal).map fun p => ⟨p.1.name, p.2.top, p.2.bot⟩) (m + 1) p.1.name = some (some (p.1.elev, p.1.thick)) := by
    intro p hp hpm m
    refine c40_metal _ (m := p.1) (List.mem_map.2 ⟨p, List.mem_filter.2 ⟨hp, hpm⟩, rfl⟩) ?_ m
    intro x hx hxn
    rw [List.mem_map] at hx
    obtain ⟨q, hq, rfl⟩ := hx
    rw [hinj q (List.mem_filter.1 hq).1 p hp hxn]
  have hget : ∀ (k : Nat) (p : Lay K × GLay K P), S[k]? = some p → ls[k]? = some p.2 := by
    intro k p h
    rw [← hsnd, List.getElem?_map, h]
    rfl
  have hget' : ∀ (k : Nat) (l : GLay K P), ls[k]? = some l → ∃ p, S[k]? = some p ∧ p.2 = l := by
    intro k l h
    rw [← hsnd, List.getElem?_map, Option.map_eq_some_iff] at h
    exact h
  have hchain : ∀ (k : Nat) (p q : Lay K × GLay K P), S[k]? = some p → S[k + 1]? = some q → p.1.elev - p.1.thick = q.1.elev := by
    intro k p q h1 h2
    obtain ⟨p1, rfl⟩ := List.getElem?_eq_some_iff.1 h1
    obtain ⟨p2, rfl⟩ := List.getElem?_eq_some_iff.1 h2
    exact List.isChain_iff_getElem.1 hch k p2
  intro p hp
  cases hpm : p.2.isMetal with
  | true => exact hmetal p hp hpm (n + 1)
  | false =>
    obtain ⟨k, hk⟩ := List.getElem?_of_mem hp
    obtain ⟨j, a, b, rfl, ha, ham, hb, hbm⟩ := hvia k p.2 (hget k p hk) hpm
    obtain ⟨qa, ha', rfl⟩ := hget' j a ha
    obtain ⟨qb, hb', rfl⟩ := hget' _ b hb
    have hqa := List.mem_of_getElem? ha'
    have hqb := List.mem_of_getElem? hb'
    have h1 := hmetal qa hqa ham n
    have h2 := hmetal qb hqb hbm n
    obtain ⟨h, d, r1, r2, r3⟩ := c40_via (metals := (S.filter fun p => p.2.isMetal).map Prod.fst)
      (vias := (S.filter fun p => !p.2.isMetal).map fun p => ⟨p.1.name, p.2.top, p.2.bot⟩) (v := ⟨p.1.name, p.2.top, p.2.bot⟩)
      (List.mem_map.2 ⟨p, List.mem_filter.2 ⟨hp, by simp [hpm]⟩, rfl⟩) (by
        intro w hw hwn
        rw [List.mem_map] at hw
        obtain ⟨q, hq, rfl⟩ := hw
        rw [hinj q (List.mem_filter.1 hq).1 p hp hwn]) (by
        intro m hm hmn
        rw [List.mem_map] at hm
        obtain ⟨q, hq, rfl⟩ := hm
        have := hinj q (List.mem_filter.1 hq).1 p hp hmn
        rw [this] at hq
        have := (List.mem_filter.1 hq).2
        rw [hpm] at this
        cases this) (n := n + 1) (t := (qa.1.elev, qa.1.thick)) (b := (qb.1.elev, qb.1.thick))
        (by simp only; rw [(htop j _ _ ha (hget _ _ hk)).1, ← (hmem qa hqa).1]; exact h1)
        (by simp only; rw [(htop _ _ _ (hget _ _ hk) hb).2, ← (hmem qb hqb).1]; exact h2)
    refine r1.trans ?_
    have e1 := hchain j qa p ha' hk
    have e2 := hchain (j + 1) p qb hk hb'
    simp only at r2 r3
    have hh : h = p.1.elev := by rw [r2, e1]
    rw [hh] at r3
    have hd : d = p.1.thick := by linarith
    rw [hh, hd]

/-- C75: the grid model read from the chip model written for a grid model has the same layers, in size, name, thickness, metal fraction
and neighbours, and the power is in the lowest layer, if the layers have different names, are thicker than the tolerance, have metal
fractions, and every layer which is not a metal is between two metals -/
theorem c75_roundtrip_partial {order : List String → List String} (ho : ∀ n, order [n] = [n]) {tol : K} (htol : 0 ≤ tol) (query : P → K → Nat → Nat → Option K)
    {g : Grid K P} (hres : g.res.1 = g.res.2) (hres0 : 0 ≤ g.res.1) (hsc : 0 ≤ g.scale) (hne : g.layers ≠ []) (hn : (g.layers.map GLay.name).Nodup)
    (hname : ∀ l ∈ g.layers, l.name ≠ "") (hth : ∀ l ∈ g.layers, tol < l.thick * 1000000) (hmf : ∀ l ∈ g.layers, ∃ m, l.mf = some m ∧ (m.w, m.h) = g.size)
    (htop : ∀ (k : Nat) (a b : GLay K P), g.layers[k]? = some a → g.layers[k + 1]? = some b → b.top = a.name ∧ a.bot = b.name)
    (hvia : ∀ (k : Nat) (l : GLay K P), g.layers[k]? = some l → l.isMetal = false →
      ∃ (j : Nat) (a b : GLay K P), k = j + 1 ∧ g.layers[j]? = some a ∧ a.isMetal = true ∧ g.layers[k + 1]? = some b ∧ b.isMetal = true) (n : Nat) :
    ∃ c g' tab, toChip query g = some c ∧ toGrid order tol (n + 2) c = some (some g') ∧ c.powers = some tab ∧ g'.size = g.size ∧ g'.scale = g.scale ∧ g'.res = g.res ∧
      g'.layers.length = g.layers.length ∧ ∀ (k : Nat) (l : GLay K P), g.layers[k]? = some l → ∃ l', g'.layers[k]? = some l' ∧ l'.name = l.name ∧ l'.thick = l.thick ∧ l'.mf = l.mf ∧
        (∀ b, g.layers[k + 1]? = some b → l'.bot = b.name) ∧ (∀ (j : Nat) (a : GLay K P), k = j + 1 → g.layers[j]? = some a → l'.top = a.name) ∧
        l'.powers = if k + 1 = g.layers.length then [tab] else [] := by
  have hm : ∃ f : GLay K P → Frac K, ∀ l ∈ g.layers, l.mf = some (f l) := by
    refine ⟨fun l => l.mf.getD ⟨0, 0, fun _ _ => 0⟩, ?_⟩
    intro l hl
    obtain ⟨m, h, _⟩ := hmf l hl
    change l.mf = some (l.mf.getD _)
    rw [h]
    rfl
  obtain ⟨f, hf⟩ := hm
  have hds := densitiesOf_eq g.layers hn f hf
  have hSlen : (stackOf (totalThick g.layers * 1000000) g.layers).length = g.layers.length := by
    rw [← List.length_map (f := Prod.snd), stackOf_snd]
  have hres' := toChip_resolve (totalThick g.layers * 1000000) hn htop hvia n
  have hsnd := stackOf_snd (totalThick g.layers * 1000000) g.layers
  have hmem := stackOf_mem (totalThick g.layers * 1000000) g.layers
  have hch := stackOf_chain (totalThick g.layers * 1000000) g.layers
  unfold toChip
  rw [if_neg (by simp [hres])]
  simp only
  rw [if_neg (by rw [hds, hSlen]; simp)]
  generalize stackOf (totalThick g.layers * 1000000) g.layers = S at *
  -- the stackup
  have hT : (S.map fun p => p.1.name) = (S.map Prod.fst).map Lay.name := by
    rw [List.map_map]
    rfl
  have hthS : ∀ p ∈ S, tol < p.1.thick := by
    intro p hp
    rw [(hmem p hp).2]
    refine hth p.2 ?_
    rw [← hsnd]
    exact List.mem_map.2 ⟨p, hp, rfl⟩
  have hchT : (S.map Prod.fst).IsChain fun a b => a.elev - a.thick = b.elev := (List.isChain_map _).2 hch
  have hthT : ∀ a ∈ S.map Prod.fst, tol < a.thick := by
    intro a ha
    rw [List.mem_map] at ha
    obtain ⟨p, hp, rfl⟩ := ha
    exact hthS p hp
  have hgap : ∀ T : List (Lay K), (T.IsChain fun a b => a.elev - a.thick = b.elev) → (∀ a ∈ T, tol < a.thick) →
      (T.IsChain fun a b => tol < |a.elev - b.elev|) ∧ T.IsChain fun a b => b.elev ≤ a.elev := by
    intro T h1 h2
    induction T with
    | nil => exact ⟨List.isChain_nil, List.isChain_nil⟩
    | cons a T ih =>
      cases T with
      | nil => exact ⟨List.isChain_singleton _, List.isChain_singleton _⟩
      | cons b T =>
        obtain ⟨c1, c2⟩ := List.isChain_cons_cons.1 h1
        obtain ⟨i1, i2⟩ := ih c2 fun x hx => h2 x (by simp [hx])
        have ha := h2 a (by simp)
        refine ⟨List.isChain_cons_cons.2 ⟨?_, i1⟩, List.isChain_cons_cons.2 ⟨by linarith, i2⟩⟩
        refine lt_of_lt_of_le ?_ (le_abs_self _)
        linarith
  obtain ⟨hg1, hg2⟩ := hgap _ hchT hthT
  have htr : IsTrans (Lay K) (fun a b : Lay K => b.elev ≤ a.elev) := ⟨fun a b c h h' => h'.trans h⟩
  have hpw : (S.map Prod.fst).Pairwise fun a b => b.elev ≤ a.elev := List.isChain_iff_pairwise.1 hg2
  have hst : build order tol ((S.filter fun p => p.2.isMetal).map Prod.fst) ((S.filter fun p => !p.2.isMetal).map fun p => ⟨p.1.name, p.2.top, p.2.bot⟩)
      (S.map fun p => p.1.name) (n + 2) = some ((S.map Prod.fst).map fun a => ⟨a.name, a.elev, a.thick, [a.name]⟩) := by
    unfold build
    rw [hT, collect_all (S.map Prod.fst) (by
      intro t ht
      rw [List.mem_map] at ht
      obtain ⟨p, hp, rfl⟩ := ht
      exact hres' p hp), Option.map_some, hpw.insertionSort_eq, merge_single tol _ hg1 _ (le_refl _), layersOf_single order ho _ hchT]
  -- the lowest layer
  rcases List.eq_nil_or_concat' S with rfl | ⟨S', z, hS⟩
  · exact absurd (by simpa using hsnd.symm) hne
  have hlen : g.layers.length = S'.length + 1 := by rw [← hsnd, hS]; simp
  have hz : g.layers[S'.length]? = some z.2 := by rw [← hsnd, hS]; simp
  have hzm : z.2.isMetal = true := by
    cases hzm : z.2.isMetal with
    | true => rfl
    | false =>
      obtain ⟨_, _, b, _, _, _, hb, _⟩ := hvia _ _ hz hzm
      have := (List.getElem?_eq_some_iff.1 hb).1
      omega
  have hzS : z ∈ S := by rw [hS]; simp
  have hlast : lastMetal ((S.filter fun p => p.2.isMetal).map Prod.fst) ((S.map Prod.fst).map fun a => (⟨a.name, a.elev, a.thick, [a.name]⟩ : SLay K)) = z.2.name := by
    rw [← (hmem z hzS).1]
    refine c40_last (pre := (S'.map Prod.fst).map fun a => ⟨a.name, a.elev, a.thick, [a.name]⟩) (post := []) (s := ⟨z.1.name, z.1.elev, z.1.thick, [z.1.name]⟩) ?_ ?_ (by simp)
    · rw [hS]
      simp
    · exact ⟨z.1.name, by simp, z.1, List.mem_map.2 ⟨z, List.mem_filter.2 ⟨hzS, hzm⟩, rfl⟩, rfl⟩
  have hz2 : z.2 ∈ g.layers := List.mem_of_getElem? hz
  obtain ⟨g', g1, g2, g3, g4⟩ := c75_layers (P := Table K) (order := order) (tol := tol) (fuel := n + 2)
    (c := { tiles := g.size, scale := g.scale, res := g.res.1 * 1000000, metals := (S.filter fun p => p.2.isMetal).map Prod.fst, vias := (S.filter fun p => !p.2.isMetal).map fun p => ⟨p.1.name, p.2.top, p.2.bot⟩, tech := S.map fun p => p.1.name, densities := densitiesOf g.layers, powers := some ([25, 50, 75, 100, 125].map fun t => (t, ⟨g.size.1, g.size.2, cellPower query g.layers t⟩)) })
    hst (by rw [hlast]; exact hname _ hz2) (by
      intro s hs
      rw [List.mem_map] at hs
      obtain ⟨a, ha, rfl⟩ := hs
      have := hthT a ha
      have : 0 ≤ a.thick := by linarith
      simp only
      positivity) (by
      intro d hd
      rw [hds, List.mem_map] at hd
      obtain ⟨l, hl, rfl⟩ := hd
      obtain ⟨m, h1, h2⟩ := hmf l hl
      rw [hf l hl, Option.some.injEq] at h1
      simp only [h1]
      exact h2)
  refine ⟨_, g', _, rfl, g1, rfl, g2, ?_, ?_, ?_, ?_⟩
  · unfold toGrid at g1
    rw [hst] at g1
    simp only at g1
    rw [if_neg (by rw [hlast]; exact hname _ hz2), Option.some.injEq, Option.some.injEq] at g1
    rw [← g1]
    simp only
    rw [if_neg (not_lt.2 hsc)]
  · unfold toGrid at g1
    rw [hst] at g1
    simp only at g1
    rw [if_neg (by rw [hlast]; exact hname _ hz2), Option.some.injEq, Option.some.injEq] at g1
    rw [← g1]
    simp only
    have he : g.res.1 * 1000000 * (1 / 1000000) = g.res.1 := by
      rw [mul_assoc]
      norm_num
    rw [he, if_neg (not_lt.2 hres0)]
    exact Prod.ext rfl hres
  · rw [g3, List.length_map, List.length_map, hS, hlen]
    simp
  · intro k l hk
    have hp : ∃ p, S[k]? = some p ∧ p.2 = l := by
      rw [← hsnd, List.getElem?_map, Option.map_eq_some_iff] at hk
      exact hk
    obtain ⟨p, hp, rfl⟩ := hp
    have hpS := List.mem_of_getElem? hp
    have hpl : p.2 ∈ g.layers := List.mem_of_getElem? hk
    obtain ⟨l', l1, l2, l3, l4, l5, _, l7, _, l9⟩ := g4 k ⟨p.1.name, p.1.elev, p.1.thick, [p.1.name]⟩ (by rw [List.getElem?_map, List.getElem?_map, hp]; rfl)
    have hnext : ∀ (j : Nat) (b : GLay K P), g.layers[j]? = some b → ((S.map Prod.fst).map fun a => (⟨a.name, a.elev, a.thick, [a.name]⟩ : SLay K))[j]?.map SLay.name = some b.name := by
      intro j b hb
      rw [← hsnd, List.getElem?_map, Option.map_eq_some_iff] at hb
      obtain ⟨q, hq, rfl⟩ := hb
      rw [List.getElem?_map, List.getElem?_map, hq, Option.map_some, Option.map_some, Option.map_some, (hmem q (List.mem_of_getElem? hq)).1]
    refine ⟨l', l1, ?_, ?_, ?_, ?_, ?_, ?_⟩
    · rw [l2, (hmem p hpS).1]
    · rw [l3, (hmem p hpS).2, mul_assoc]
      norm_num
    · rw [l4, hf _ hpl, hds]
      congr 1
      refine c75_one ?_
      rw [(hmem p hpS).1]
      simp [densityOf_map g.layers hn f hpl]
    · intro b hb
      rw [l7, hnext _ _ hb]
      rfl
    · rintro j a rfl ha
      have := hnext _ _ ha
      rw [Option.map_eq_some_iff] at this
      obtain ⟨s', s1, s2⟩ := this
      rw [← s2]
      exact l9 j s' rfl s1
    · rw [l5, hlast]
      simp only
      rw [(hmem p hpS).1]
      by_cases hkl : k + 1 = g.layers.length
      · rw [if_pos hkl, if_pos]
        · rfl
        · have : k = S'.length := by omega
          subst this
          rw [hz, Option.some.injEq] at hk
          rw [hk]
      · rw [if_neg hkl, if_neg]
        intro he
        apply hkl
        have hi : k = S'.length := by
          have h1 := List.getElem?_eq_some_iff.1 hk
          have h2 := List.getElem?_eq_some_iff.1 hz
          refine (List.Nodup.getElem_inj_iff hn (hi := by simpa using h1.1) (hj := by simpa using h2.1)).1 ?_
          rw [List.getElem_map, List.getElem_map, h1.2, h2.2, he]
        omega

omit [IsStrictOrderedRing K] in
/-- C75: the power table of the chip model holds the power of all layers of the grid model, at every temperature and in every cell -/
theorem c75_table {query : P → K → Nat → Nat → Option K} {g : Grid K P} {c : Chip K (Table K)} (h : toChip query g = some c) :
    ∃ tab, c.powers = some tab ∧ tab.map Prod.fst = [25, 50, 75, 100, 125] ∧ ∀ e ∈ tab, (e.2.w, e.2.h) = g.size ∧
      ∀ x y, e.2.val x y = ((g.layers.flatMap GLay.powers).map fun p => (query p e.1 x y).getD 0).sum := by
  unfold toChip at h
  split at h
  · cases h
  · simp only at h
    split at h
    · cases h
    · rw [Option.some.injEq] at h
      subst h
      refine ⟨_, rfl, rfl, ?_⟩
      intro e he
      rw [List.mem_map] at he
      obtain ⟨t, _, rfl⟩ := he
      refine ⟨rfl, ?_⟩
      intro x y
      simp only
      have hin : ∀ (ps : List P) (s : K), ps.foldl (addPower query t x y) s = s + (ps.map fun p => (query p t x y).getD 0).sum := by
        intro ps
        induction ps with
        | nil => intro s; simp
        | cons p ps ih =>
          intro s
          rw [List.foldl_cons, ih, List.map_cons, List.sum_cons, addPower]
          cases query p t x y with
          | none => simp
          | some v => simp [add_assoc]
      have hout : ∀ (ls : List (GLay K P)) (s : K), ls.foldl (fun s l => l.powers.foldl (addPower query t x y) s) s =
          s + ((ls.flatMap GLay.powers).map fun p => (query p t x y).getD 0).sum := by
        intro ls
        induction ls with
        | nil => intro s; simp
        | cons l ls ih =>
          intro s
          rw [List.foldl_cons, ih, hin, List.flatMap_cons, List.map_append, List.sum_append, add_assoc]
      unfold cellPower
      rw [hout, zero_add]

/-! ## what does not come back -/

omit [IsStrictOrderedRing K] in
theorem append_metal (size : Nat × Nat) (ls : List (GLay K P)) : ∀ R : List (GLay K P), (∀ l ∈ R, l.isMetal = false) → (∀ l ∈ ls, l.isMetal = false) →
    ∀ l ∈ ls.foldl (appendLayer size) R, l.isMetal = false := by
  induction ls with
  | nil => intro R h _; exact h
  | cons a ls ih =>
    intro R h1 h2
    rw [List.foldl_cons]
    refine ih _ ?_ fun l hl => h2 l (by simp [hl])
    rw [appendLayer]
    split
    · exact h1
    · split
      · exact h1
      · split
        · intro l hl
          rcases List.mem_append.1 hl with hl | hl
          · exact h1 l hl
          · simp only [List.mem_cons, List.not_mem_nil, or_false] at hl
            rw [hl]
            exact h2 a (by simp)
        · rename_i b hb
          intro l hl
          rcases List.mem_append.1 hl with hl | hl
          · exact h1 l ((List.dropLast_sublist R).subset hl)
          · simp only [List.mem_cons, List.not_mem_nil, or_false] at hl
            rcases hl with rfl | rfl
            · exact h1 b (List.mem_of_getLast? hb)
            · exact h2 a (by simp)

omit [LinearOrder K] [IsStrictOrderedRing K] in
theorem stackOf_mem2 (e : K) (ls : List (GLay K P)) {p : Lay K × GLay K P} (hp : p ∈ stackOf e ls) : p.2 ∈ ls := by
  have : p.2 ∈ (stackOf e ls).map Prod.snd := List.mem_map.2 ⟨p, hp, rfl⟩
  rwa [stackOf_snd] at this

omit [IsStrictOrderedRing K] in
/-- C75 fails for grid models made from chip models: no layer is marked as metal, so that the chip model written for it can never be read again -/
theorem c75_again_refuted {order : List String → List String} {tol : K} {fuel fuel' : Nat} {c : Chip K P} {g : Grid K P} (h : toGrid order tol fuel c = some (some g))
    {query : P → K → Nat → Nat → Option K} {c' : Chip K (Table K)} (h' : toChip query g = some c') (g' : Grid K (Table K)) : toGrid order tol fuel' c' ≠ some (some g') := by
  have hg : ∀ l ∈ g.layers, l.isMetal = false := by
    unfold toGrid at h
    split at h
    · cases h
    · simp only at h
      split at h
      · cases h
      · rw [Option.some.injEq, Option.some.injEq] at h
        rw [← h]
        refine append_metal _ _ [] (by simp) ?_
        intro l hl
        rw [List.mem_map] at hl
        obtain ⟨s, _, rfl⟩ := hl
        rfl
  have hc : c'.metals = [] := by
    unfold toChip at h'
    split at h'
    · cases h'
    · simp only at h'
      split at h'
      · cases h'
      · rw [Option.some.injEq] at h'
        rw [← h']
        simp only [List.map_eq_nil_iff, List.filter_eq_nil_iff]
        intro p hp
        rw [hg p.2 (stackOf_mem2 _ _ hp)]
        simp
  intro hx
  unfold toGrid at hx
  split at hx
  · cases hx
  · rename_i st hst
    have : lastMetal c'.metals st = "" := by
      unfold lastMetal
      rw [hc, List.find?_eq_none.2 (by simp)]
    simp [this] at hx

omit [LinearOrder K] [IsStrictOrderedRing K] in
theorem viaLoop_none {f : String → Option (Option (K × K))} {vs : List ViaLay} {v : ViaLay} (hv : v ∈ vs) (hu : ∀ w ∈ vs, w.name = v.name → w = v)
    (h : f v.top = none ∨ (∃ t, f v.top = some (some t)) ∧ f v.bot = none) : viaLoop f v.name vs = none := by
  induction vs with
  | nil => simp at hv
  | cons w vs ih =>
    rw [viaLoop]
    by_cases hw : v.name = w.name
    · rw [if_pos hw, hu w (by simp) hw.symm]
      rcases h with h | ⟨⟨t, h⟩, h'⟩
      · rw [h]
      · rw [h]
        simp only
        rw [h']
    · rw [if_neg hw]
      rcases List.mem_cons.1 hv with rfl | hv
      · exact absurd rfl hw
      · exact ih hv fun x hx => hu x (by simp [hx])

omit [Field K] [LinearOrder K] [IsStrictOrderedRing K] in
theorem collect_none {f : String → Option (Option (K × K))} {tech : List String} {n : String} (hn : n ∈ tech) (h : f n = none) : collect f tech = none := by
  induction tech with
  | nil => simp at hn
  | cons m tech ih =>
    rw [collect]
    rcases List.mem_cons.1 hn with rfl | hn
    · rw [h]
    · rw [ih hn]
      cases f m with
      | none => rfl
      | some r => cases r <;> rfl

omit [IsStrictOrderedRing K] in
/-- the lists of the header of a chip model made from a grid model -/
theorem toChip_lists {query : P → K → Nat → Nat → Option K} {g : Grid K P} {c : Chip K (Table K)} (h : toChip query g = some c) :
    (∀ m ∈ c.metals, ∃ l ∈ g.layers, l.isMetal = true ∧ l.name = m.name) ∧ (∀ l ∈ g.layers, l.isMetal = true → ∃ m ∈ c.metals, m.name = l.name) ∧
    (∀ v, v ∈ c.vias ↔ ∃ l ∈ g.layers, l.isMetal = false ∧ v = ⟨l.name, l.top, l.bot⟩) ∧ c.tech = g.layers.map GLay.name := by
  unfold toChip at h
  split at h
  · cases h
  · simp only at h
    split at h
    · cases h
    · rw [Option.some.injEq] at h
      subst h
      have hsnd := stackOf_snd (totalThick g.layers * 1000000) g.layers
      have hmem := stackOf_mem (totalThick g.layers * 1000000) g.layers
      generalize stackOf (totalThick g.layers * 1000000) g.layers = S at *
      have h2 : ∀ l ∈ g.layers, ∃ p ∈ S, p.2 = l := by
        intro l hl
        rw [← hsnd] at hl
        exact List.mem_map.1 hl
      have h1 : ∀ p ∈ S, p.2 ∈ g.layers := by
        intro p hp
        rw [← hsnd]
        exact List.mem_map.2 ⟨p, hp, rfl⟩
      refine ⟨?_, ?_, ?_, ?_⟩
      · intro m hm
        simp only [List.mem_map, List.mem_filter] at hm
        obtain ⟨p, ⟨hp, hpm⟩, rfl⟩ := hm
        exact ⟨p.2, h1 p hp, hpm, (hmem p hp).1.symm⟩
      · intro l hl hm
        obtain ⟨p, hp, rfl⟩ := h2 l hl
        exact ⟨p.1, List.mem_map.2 ⟨p, List.mem_filter.2 ⟨hp, hm⟩, rfl⟩, (hmem p hp).1⟩
      · intro v
        simp only [List.mem_map, List.mem_filter]
        constructor
        · rintro ⟨p, ⟨hp, hpm⟩, rfl⟩
          exact ⟨p.2, h1 p hp, by simpa using hpm, by rw [(hmem p hp).1]⟩
        · rintro ⟨l, hl, hm, rfl⟩
          obtain ⟨p, hp, rfl⟩ := h2 l hl
          exact ⟨p, ⟨hp, by simp [hm]⟩, by rw [(hmem p hp).1]⟩
      · simp only
        rw [← hsnd, List.map_map]
        exact List.map_congr_left fun p hp => (hmem p hp).1

omit [IsStrictOrderedRing K] in
/-- C75 fails for two neighbouring layers which are not metal: the lookup of positions in the chip model never ends -/
theorem c75_adjacent_refuted (order : List String → List String) (tol : K) {query : P → K → Nat → Nat → Option K} {g : Grid K P} {c : Chip K (Table K)} (h : toChip query g = some c)
    (hn : (g.layers.map GLay.name).Nodup) (htop : ∀ (k : Nat) (a b : GLay K P), g.layers[k]? = some a → g.layers[k + 1]? = some b → b.top = a.name ∧ a.bot = b.name)
    {k : Nat} {m a b : GLay K P} (hm : g.layers[k]? = some m) (ha : g.layers[k + 1]? = some a) (hb : g.layers[k + 2]? = some b)
    (hmm : m.isMetal = true) (ham : a.isMetal = false) (hbm : b.isMetal = false) (fuel : Nat) : toGrid order tol fuel c = none := by
  obtain ⟨l1, l2, l3, l4⟩ := toChip_lists h
  have hm' := List.mem_of_getElem? hm
  have ha' := List.mem_of_getElem? ha
  have hb' := List.mem_of_getElem? hb
  have hinj : ∀ x ∈ g.layers, ∀ y ∈ g.layers, x.name = y.name → x = y := fun x hx y hy h => List.inj_on_of_nodup_map hn hx hy h
  have hvu : ∀ x ∈ g.layers, x.isMetal = false → (∀ w ∈ c.vias, w.name = x.name → w = ⟨x.name, x.top, x.bot⟩) ∧ ∀ y ∈ c.metals, y.name ≠ x.name := by
    intro x hx hxm
    constructor
    · intro w hw hwn
      obtain ⟨y, hy, _, rfl⟩ := (l3 w).1 hw
      rw [hinj y hy x hx hwn]
    · intro y hy hyn
      obtain ⟨z, hz, hzm, hzn⟩ := l1 y hy
      rw [hinj z hz x hx (hzn.trans hyn), hxm] at hzm
      cases hzm
  have hrm : ∀ f, resolve c.metals c.vias f m.name = none ∨ ∃ t, resolve c.metals c.vias f m.name = some (some t) := by
    intro f
    cases f with
    | zero => exact .inl rfl
    | succ f =>
      right
      rw [resolve]
      obtain ⟨y, hy, hyn⟩ := l2 m hm' hmm
      cases hf : c.metals.find? fun z => m.name = z.name with
      | some z => exact ⟨_, rfl⟩
      | none =>
        rw [List.find?_eq_none] at hf
        have := hf y hy
        simp [hyn] at this
  have key : ∀ f, resolve c.metals c.vias f a.name = none ∧ resolve c.metals c.vias f b.name = none := by
    intro f
    induction f with
    | zero => exact ⟨rfl, rfl⟩
    | succ f ih =>
      obtain ⟨ua, na⟩ := hvu a ha' ham
      obtain ⟨ub, nb⟩ := hvu b hb' hbm
      constructor
      · rw [resolve, find_none na]
        refine viaLoop_none (v := ⟨a.name, a.top, a.bot⟩) ((l3 _).2 ⟨a, ha', ham, rfl⟩) ua ?_
        simp only
        rw [(htop k m a hm ha).1, (htop (k + 1) a b ha hb).2]
        rcases hrm f with h | h
        · exact .inl h
        · exact .inr ⟨h, ih.2⟩
      · rw [resolve, find_none nb]
        refine viaLoop_none (v := ⟨b.name, b.top, b.bot⟩) ((l3 _).2 ⟨b, hb', hbm, rfl⟩) ub ?_
        simp only
        rw [(htop (k + 1) a b ha hb).1]
        exact .inl ih.1
  unfold toGrid build
  rw [collect_none (n := a.name) (by rw [l4]; exact List.mem_map.2 ⟨a, ha', rfl⟩) (key fuel).1]
  rfl

/-- C75 fails for a highest layer which is not metal: it is in no layer of the stackup of the chip model -/
theorem c75_outer_refuted {order : List String → List String} {tol : K} (htol : 0 ≤ tol) {query : P → K → Nat → Nat → Option K} {g : Grid K P} {c : Chip K (Table K)} (h : toChip query g = some c)
    (hn : (g.layers.map GLay.name).Nodup) (hname : ∀ l ∈ g.layers, l.name ≠ "") {a : GLay K P} (ha : a ∈ g.layers) (ham : a.isMetal = false) (hat : a.top = "")
    {fuel : Nat} {st : List (SLay K)} (hb : build order tol c.metals c.vias c.tech fuel = some st) : ∀ s ∈ st, a.name ∉ s.names := by
  obtain ⟨l1, l2, l3, l4⟩ := toChip_lists h
  have hinj : ∀ x ∈ g.layers, ∀ y ∈ g.layers, x.name = y.name → x = y := fun x hx y hy h => List.inj_on_of_nodup_map hn hx hy h
  intro s hs hc
  obtain ⟨_, _, _, _, h5⟩ := c40_stackup_partial htol hb
  obtain ⟨_, x, t, hr, _⟩ := (h5 s hs).2.2 a.name hc
  have hempty : ∀ f, resolve c.metals c.vias f "" = none ∨ resolve c.metals c.vias f "" = some none := by
    intro f
    cases f with
    | zero => exact .inl rfl
    | succ f =>
      right
      rw [resolve, find_none (by
        intro m hm hmn
        obtain ⟨l, hl, _, hln⟩ := l1 m hm
        exact hname l hl (hln.trans hmn))]
      refine viaLoop_skip ?_
      intro v hv hvn
      obtain ⟨l, hl, _, rfl⟩ := (l3 v).1 hv
      exact hname l hl hvn
  have hloop : ∀ (f : String → Option (Option (K × K))) (vs : List ViaLay), (∀ w ∈ vs, w.name = a.name → w.top = "") → (f "" = none ∨ f "" = some none) → ∀ r, viaLoop f a.name vs ≠ some (some r) := by
    intro f vs hw hf r
    induction vs with
    | nil => simp [viaLoop]
    | cons w vs ih =>
      have ih' := ih fun x hx => hw x (by simp [hx])
      rw [viaLoop]
      by_cases hwn : a.name = w.name
      · rw [if_pos hwn, hw w (by simp) hwn.symm]
        rcases hf with hf | hf <;> rw [hf]
        · simp
        · exact ih'
      · rw [if_neg hwn]
        exact ih'
  cases fuel with
  | zero => cases hr
  | succ f =>
    rw [resolve, find_none (by
      intro m hm hmn
      obtain ⟨l, hl, hlm, hln⟩ := l1 m hm
      rw [hinj l hl a ha (hln.trans hmn), ham] at hlm
      cases hlm)] at hr
    refine hloop _ _ ?_ (hempty f) _ hr
    intro w hw hwn
    obtain ⟨l, hl, _, rfl⟩ := (l3 w).1 hw
    rw [hinj l hl a ha hwn]
    exact hat

/-! A metal, a via and a metal -/

def exGrid : Grid ℚ Nat :=
  { size := (1, 2), scale := 1, res := (1 / 1000, 1 / 1000),
    layers := [⟨"M2", true, 3 / 1000000, "", "V", some ⟨1, 2, fun _ y => y / 4⟩, [7]⟩, ⟨"V", false, 1 / 1000000, "M2", "M1", some ⟨1, 2, fun _ _ => 0⟩, []⟩,
      ⟨"M1", true, 2 / 1000000, "V", "", some ⟨1, 2, fun _ _ => 1⟩, [5]⟩] }

def exQuery : Nat → ℚ → Nat → Nat → Option ℚ := fun p t _ y => if t < 100 then some (p * (y + 1)) else none

example : ((toChip exQuery exGrid).bind fun c => (toGrid id (1 / 1000000) 2 c).map fun r => r.map fun g => g.layers.map fun l => (l.name, l.thick, l.top, l.bot)) =
    some (some [("M2", 3 / 1000000, "", "V"), ("V", 1 / 1000000, "M2", "M1"), ("M1", 2 / 1000000, "V", "")]) := by
  decide +kernel

example : ((toChip exQuery exGrid).bind fun c => (toGrid id (1 / 1000000) 2 c).map fun r => r.map fun g => g.layers.map fun l => l.powers.map fun t => t.map fun e => (e.1, e.2.val 0 1)) =
    some (some [[], [], [[(25, 24), (50, 24), (75, 24), (100, 0), (125, 0)]]]) := by
  decide +kernel

end Ecad.Ctm
