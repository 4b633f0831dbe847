import Verif.Util.MergerModel
import Verif.Util.UtilProps
/-!
C98: merging the polygons of a layout keeps the metal of every layer and net.
-/
namespace Ecad.PMerge

open Ecad.Shp

variable {K : Type} [Field K] [LinearOrder K] [IsStrictOrderedRing K]

/-! ### specification

`inside poly p` says that the polygon covers the point. -/

/-- inside the outline and in none of the holes -/
def Covers (inside : List (K × K) → K × K → Prop) (o : Pwh K) (p : K × K) : Prop :=
  inside o.outline p ∧ ∀ h ∈ o.holes, ¬ inside h p

/-- the points covered by the geometries of a net on a layer -/
def Metal (inside : List (K × K) → K × K → Prop) (L : Lib K) (prims : List (Prim K)) (layer net : Int) (p : K × K) : Prop :=
  ∃ q ∈ prims, q.layer = layer ∧ q.net = net ∧ ∃ s, q.geom = some (some s) ∧ s.isValid = true ∧ Covers inside (s.pwh L) p

/-- the points covered by the padstack instances of a net on a layer (their shapes: C84) -/
def Pads (inside : List (K × K) → K × K → Prop) (R : Int → K × K) (L : Lib K) (insts : List (Inst K)) (layer net : Int)
    (p : K × K) : Prop :=
  ∃ i ∈ insts, i.net = net ∧ ∃ s, i.inst.layerShape R layer = .ok (some s) ∧ s.isValid = true ∧ Covers inside (s.pwh L) p

/-- the nets to be merged: those selected, or all -/
def Selected (set : Settings) (net : Int) : Prop := set.nets = [] ∨ net ∈ set.nets

/-- the primitives to be merged -/
def Merged (layers : List Layer) (set : Settings) (q : Prim K) : Prop :=
  (∃ s, q.geom = some (some s) ∧ s.isValid = true) ∧ (∃ l ∈ layers, l.id = q.layer) ∧ Selected set q.net

/-- What is asked of the library: for each net the polygons that result cover the points that the given ones
cover; each has at least three points and a net that was given. -/
structure RunOK (inside : List (K × K) → K × K → Prop) (run : Objs K → Objs K) : Prop where
  covers : ∀ os net p, (∃ o ∈ run os, o.1 = net ∧ Covers inside o.2 p) ↔ ∃ o ∈ os, o.1 = net ∧ Covers inside o.2 p
  valid : ∀ os, ∀ o ∈ run os, 3 ≤ o.2.outline.length
  nets : ∀ os, ∀ o ∈ run os, ∃ o' ∈ os, o'.1 = o.1

/-! ### proof -/

theorem object_eq (L : Lib K) (s : Shape K) : object L s = s.pwh L := by
  obtain ⟨h1, h2, -⟩ := c82_holes L s
  cases s with
  | templ m s =>
    rw [object]
    split
    · rfl
    · rename_i h
      have : ((Shape.templ m s).pwh L).holes = [] := by
        by_contra hc
        exact h (h2.2 hc)
      rw [← h1, ← this]
  | _ => rfl

theorem pwh_shapeOf (L : Lib K) (o : Pwh K) : (shapeOf o).pwh L = o := by
  unfold shapeOf
  split
  · rename_i h
    rw [List.isEmpty_iff] at h
    obtain ⟨a, b⟩ := o
    simp only at h
    subst h
    rfl
  · rfl

theorem valid_shapeOf (o : Pwh K) (h : 3 ≤ o.outline.length) : (shapeOf o).isValid = true := by
  unfold shapeOf
  split <;> simpa [Shape.isValid] using h

/-- layer `l` has a merger -/
def Keyed (ms : Mergers K) (l : Int) : Prop := ∃ m ∈ ms, m.1 = l

/-- polygon `o` was added to the merger of layer `l` -/
def Has (ms : Mergers K) (l : Int) (o : Int × Pwh K) : Prop := ∃ m ∈ ms, m.1 = l ∧ o ∈ m.2

theorem keyed_any (ms : Mergers K) (l : Int) : ms.any (·.1 == l) = true ↔ Keyed ms l := by
  simp [Keyed]

theorem addTo_keyed (ms : Mergers K) (l : Int) (o : Int × Pwh K) (k : Int) : Keyed (addTo ms l o) k ↔ Keyed ms k := by
  unfold Keyed addTo
  simp only [List.mem_map]
  constructor
  · rintro ⟨_, ⟨m, hm, rfl⟩, h⟩
    refine ⟨m, hm, ?_⟩
    split at h <;> exact h
  · rintro ⟨m, hm, h⟩
    refine ⟨_, ⟨m, hm, rfl⟩, ?_⟩
    split <;> exact h

theorem addTo_has (ms : Mergers K) (l : Int) (o : Int × Pwh K) (hk : Keyed ms l) (k : Int) (x : Int × Pwh K) :
    Has (addTo ms l o) k x ↔ Has ms k x ∨ (k = l ∧ x = o) := by
  unfold Has addTo
  simp only [List.mem_map]
  constructor
  · rintro ⟨_, ⟨m, hm, rfl⟩, h1, h2⟩
    by_cases hl : m.1 = l
    · rw [if_pos hl] at h1 h2
      simp only [List.mem_append, List.mem_singleton] at h1 h2
      rcases h2 with h2 | h2
      · exact Or.inl ⟨m, hm, h1, h2⟩
      · exact Or.inr ⟨h1.symm.trans hl, h2⟩
    · rw [if_neg hl] at h1 h2
      exact Or.inl ⟨m, hm, h1, h2⟩
  · rintro (⟨m, hm, h1, h2⟩ | ⟨rfl, rfl⟩)
    · refine ⟨_, ⟨m, hm, rfl⟩, ?_⟩
      split
      · exact ⟨h1, List.mem_append_left _ h2⟩
      · exact ⟨h1, h2⟩
    · obtain ⟨m, hm, h1⟩ := hk
      refine ⟨_, ⟨m, hm, rfl⟩, ?_⟩
      rw [if_pos h1]
      exact ⟨h1, by simp⟩

theorem sel_iff (set : Settings) (net : Int) : (!set.nets.isEmpty && !set.nets.contains net) = false ↔ Selected set net := by
  unfold Selected
  cases h : set.nets with
  | nil => simp
  | cons a l => simp; tauto

/-- what is added for one shape -/
def Adds (L : Lib K) (set : Settings) (keys : Int → Prop) (net layer : Int) (shape : Option (Shape K)) (k : Int)
    (x : Int × Pwh K) : Prop :=
  ∃ s, shape = some s ∧ s.isValid = true ∧ keys layer ∧ Selected set net ∧ k = layer ∧ x = (net, s.pwh L)

theorem fillOne_ok (L : Lib K) (set : Settings) (ms : Mergers K) (net layer : Int) (shape : Option (Shape K)) :
    ((fillOne L set ms net layer shape).2 = true ↔
      (∃ s, shape = some s ∧ s.isValid = true) ∧ Keyed ms layer ∧ Selected set net) ∧
    (∀ k, Keyed (fillOne L set ms net layer shape).1 k ↔ Keyed ms k) ∧
    (∀ k x, Has (fillOne L set ms net layer shape).1 k x ↔ Has ms k x ∨ Adds L set (Keyed ms) net layer shape k x) := by
  unfold fillOne Adds
  cases shape with
  | none => simp
  | some s =>
    simp only
    by_cases h1 : s.isValid = true
    · rw [if_neg (by simp [h1])]
      by_cases h2 : Keyed ms layer
      · rw [if_neg (by rw [(keyed_any ms layer).2 h2]; simp)]
        by_cases h3 : Selected set net
        · rw [if_neg (by rw [(sel_iff set net).2 h3]; simp)]
          refine ⟨by simp [h1, h2, h3], fun k => addTo_keyed _ _ _ _, fun k x => ?_⟩
          rw [addTo_has _ _ _ h2, object_eq]
          simp [h1, h2, h3]
        · rw [if_pos (by
            rw [← sel_iff] at h3
            simpa using h3)]
          simp [h3]
      · rw [if_pos (by
          rw [← keyed_any] at h2
          simp only [Bool.not_eq_true] at h2
          rw [h2]
          rfl)]
        simp [h2]
    · rw [if_pos (by simpa using h1)]
      simp [h1]

open Classical in
theorem fillPrims_ok (L : Lib K) (set : Settings) (prims : List (Prim K)) : ∀ (i : Nat) (ms : Mergers K),
    (∀ k, Keyed (fillPrims L set i prims ms).1 k ↔ Keyed ms k) ∧
    (∀ k x, Has (fillPrims L set i prims ms).1 k x ↔ Has ms k x ∨
      ∃ q ∈ prims, ∃ sh, q.geom = some sh ∧ Adds L set (Keyed ms) q.net q.layer sh k x) ∧
    (fillPrims L set i prims ms).2.Pairwise (· < ·) ∧
    (∀ j ∈ (fillPrims L set i prims ms).2, i ≤ j ∧ j < i + prims.length) ∧
    Util.keep (fillPrims L set i prims ms).2 i prims = prims.filter fun q =>
      decide (¬ ((∃ s, q.geom = some (some s) ∧ s.isValid = true) ∧ Keyed ms q.layer ∧ Selected set q.net)) := by
  induction prims with
  | nil => intro i ms; simp [fillPrims, Util.keep]
  | cons q qs ih =>
    intro i ms
    have hlift : ∀ (r : List Nat) (b : Bool), (∀ j ∈ r, i + 1 ≤ j ∧ j < i + 1 + qs.length) →
        (∀ j ∈ (if b then i :: r else r), i ≤ j ∧ j < i + (q :: qs).length) ∧
        Util.keep (if b then i :: r else r) i (q :: qs) =
          if b then Util.keep r (i + 1) qs else q :: Util.keep r (i + 1) qs := by
      intro r b hr
      constructor
      · intro j hj
        cases b with
        | true =>
          simp only [if_true, List.mem_cons] at hj
          rcases hj with rfl | hj
          · simp
          · have := hr j hj
            simp only [List.length_cons]
            omega
        | false =>
          simp only [Bool.false_eq_true, if_false] at hj
          have := hr j hj
          simp only [List.length_cons]
          omega
      · cases b with
        | true =>
          simp only [if_true, Util.keep, List.mem_cons, true_or, if_true]
          apply Util.keep_congr
          intro j hj _
          rw [List.mem_cons]
          constructor
          · rintro (h | h)
            · omega
            · exact h
          · exact Or.inr
        | false =>
          simp only [Bool.false_eq_true, if_false, Util.keep]
          rw [if_neg]
          intro h
          have := hr i h
          omega
    cases hg : q.geom with
    | none =>
      obtain ⟨i1, i2, i3, i4, i5⟩ := ih (i + 1) ms
      have e : fillPrims L set i (q :: qs) ms = fillPrims L set (i + 1) qs ms := by
        rw [fillPrims]
        simp only [hg]
      obtain ⟨l1, l2⟩ := hlift _ false i4
      simp only [Bool.false_eq_true, if_false] at l1 l2
      rw [e]
      refine ⟨i1, ?_, i3, l1, ?_⟩
      · intro k x
        rw [i2]
        simp [hg]
      · rw [l2, i5, List.filter_cons_of_pos (by simp [hg])]
    | some sh =>
      obtain ⟨o1, o2, o3⟩ := fillOne_ok L set ms q.net q.layer sh
      obtain ⟨i1, i2, i3, i4, i5⟩ := ih (i + 1) (fillOne L set ms q.net q.layer sh).1
      have hkeys : Keyed (fillOne L set ms q.net q.layer sh).1 = Keyed ms := funext fun k => propext (o2 k)
      have e : fillPrims L set i (q :: qs) ms =
          ((fillPrims L set (i + 1) qs (fillOne L set ms q.net q.layer sh).1).1,
            if (fillOne L set ms q.net q.layer sh).2 then i :: (fillPrims L set (i + 1) qs (fillOne L set ms q.net q.layer sh).1).2
            else (fillPrims L set (i + 1) qs (fillOne L set ms q.net q.layer sh).1).2) := by
        rw [fillPrims]
        simp only [hg]
      obtain ⟨l1, l2⟩ := hlift _ (fillOne L set ms q.net q.layer sh).2 i4
      rw [hkeys] at i2 i5
      rw [e]
      refine ⟨fun k => by simp only [i1, hkeys], ?_, ?_, l1, ?_⟩
      · intro k x
        simp only [i2, o3]
        constructor
        · rintro ((h | h) | ⟨q', hq', h⟩)
          · exact Or.inl h
          · exact Or.inr ⟨q, by simp, sh, hg, h⟩
          · exact Or.inr ⟨q', List.mem_cons_of_mem _ hq', h⟩
        · rintro (h | ⟨q', hq', sh', hs', h⟩)
          · exact Or.inl (Or.inl h)
          · rcases List.mem_cons.1 hq' with rfl | hq'
            · rw [hg] at hs'
              cases hs'
              exact Or.inl (Or.inr h)
            · exact Or.inr ⟨q', hq', sh', hs', h⟩
      · simp only
        split
        · rw [List.pairwise_cons]
          exact ⟨fun j hj => by have := i4 j hj; omega, i3⟩
        · exact i3
      · simp only at l2 ⊢
        rw [l2, i5]
        by_cases hb : (fillOne L set ms q.net q.layer sh).2 = true
        · rw [if_pos hb, List.filter_cons_of_neg]
          obtain ⟨⟨s, h1, h2⟩, h3, h4⟩ := o1.1 hb
          simp only [decide_eq_true_eq, not_not]
          exact ⟨⟨s, by rw [hg, h1], h2⟩, h3, h4⟩
        · rw [if_neg hb, List.filter_cons_of_pos]
          rw [o1] at hb
          simp only [decide_eq_true_eq]
          rintro ⟨⟨s, h1, h2⟩, h3, h4⟩
          rw [hg] at h1
          cases h1
          exact hb ⟨⟨s, rfl, h2⟩, h3, h4⟩

theorem fillLayers_ok (R : Int → K × K) (L : Lib K) (set : Settings) (i : Inst K) (hi : ∀ l, ∃ r, i.inst.layerShape R l = .ok r)
    (n : Nat) : ∀ (lyr : Int) (ms : Mergers K), ∃ ms', fillLayers R L set i n lyr ms = .ok ms' ∧
      (∀ k, Keyed ms' k ↔ Keyed ms k) ∧
      (∀ k x, Has ms' k x ↔ Has ms k x ∨
        ∃ l, lyr ≤ l ∧ l < lyr + n ∧ ∃ sh, i.inst.layerShape R l = .ok sh ∧ Adds L set (Keyed ms) i.net l sh k x) := by
  induction n with
  | zero =>
    intro lyr ms
    refine ⟨ms, rfl, fun _ => Iff.rfl, fun k x => ?_⟩
    constructor
    · exact Or.inl
    · rintro (h | ⟨l, h1, h2, -⟩)
      · exact h
      · simp at h2; omega
  | succ n ih =>
    intro lyr ms
    obtain ⟨sh, hs⟩ := hi lyr
    obtain ⟨-, o2, o3⟩ := fillOne_ok L set ms i.net lyr sh
    obtain ⟨ms', h1, h2, h3⟩ := ih (lyr + 1) (fillOne L set ms i.net lyr sh).1
    have hkeys : Keyed (fillOne L set ms i.net lyr sh).1 = Keyed ms := funext fun k => propext (o2 k)
    refine ⟨ms', ?_, fun k => by rw [h2, o2], fun k x => ?_⟩
    · rw [fillLayers, hs, Res.bind_ok, h1]
    · rw [h3, o3, hkeys]
      constructor
      · rintro ((h | h) | ⟨l, a, b, c⟩)
        · exact Or.inl h
        · exact Or.inr ⟨lyr, le_refl _, by push_cast; omega, sh, hs, h⟩
        · exact Or.inr ⟨l, by omega, by push_cast; omega, c⟩
      · rintro (h | ⟨l, a, b, sh', c, d⟩)
        · exact Or.inl (Or.inl h)
        · by_cases hl : l = lyr
          · subst hl
            rw [hs] at c
            cases c
            exact Or.inl (Or.inr d)
          · exact Or.inr ⟨l, by omega, by push_cast at b; omega, sh', c, d⟩

theorem layerShape_range (R : Int → K × K) (i : PInst K) (l : Int) (h : ¬ (min i.top i.bot ≤ l ∧ l ≤ max i.top i.bot)) :
    i.layerShape R l = .ok none := by
  unfold PInst.layerShape
  rw [if_pos (by omega)]

theorem layerShape_data (R : Int → K × K) (i : PInst K) (l : Int) (h : i.data = none) : i.layerShape R l = .ok none := by
  unfold PInst.layerShape
  split
  · rfl
  · cases i.lmap <;> simp [h]

theorem fillInsts_ok (R : Int → K × K) (L : Lib K) (set : Settings) (insts : List (Inst K))
    (hi : ∀ i ∈ insts, Selected set i.net → i.hasDef = true ∧ ∀ l, ∃ r, i.inst.layerShape R l = .ok r) :
    ∀ ms : Mergers K, ∃ ms', fillInsts R L set insts ms = .ok ms' ∧
      (∀ k, Keyed ms' k ↔ Keyed ms k) ∧
      (∀ k x, Has ms' k x ↔ Has ms k x ∨
        ∃ i ∈ insts, ∃ l sh, i.inst.layerShape R l = .ok sh ∧ Adds L set (Keyed ms) i.net l sh k x) := by
  induction insts with
  | nil => intro ms; exact ⟨ms, rfl, fun _ => Iff.rfl, by simp⟩
  | cons i is ih =>
    intro ms
    have his : ∀ i ∈ is, Selected set i.net → i.hasDef = true ∧ ∀ l, ∃ r, i.inst.layerShape R l = .ok r :=
      fun j hj => hi j (List.mem_cons_of_mem _ hj)
    have skip : (∀ k x l sh, i.inst.layerShape R l = .ok sh → ¬ Adds L set (Keyed ms) i.net l sh k x) →
        fillInsts R L set (i :: is) ms = fillInsts R L set is ms →
        ∃ ms', fillInsts R L set (i :: is) ms = .ok ms' ∧ (∀ k, Keyed ms' k ↔ Keyed ms k) ∧
          (∀ k x, Has ms' k x ↔ Has ms k x ∨
            ∃ j ∈ i :: is, ∃ l sh, j.inst.layerShape R l = .ok sh ∧ Adds L set (Keyed ms) j.net l sh k x) := by
      intro hno he
      obtain ⟨ms', h1, h2, h3⟩ := ih his ms
      refine ⟨ms', he.trans h1, h2, fun k x => ?_⟩
      rw [h3]
      constructor
      · rintro (h | ⟨j, hj, h⟩)
        · exact Or.inl h
        · exact Or.inr ⟨j, List.mem_cons_of_mem _ hj, h⟩
      · rintro (h | ⟨j, hj, l, sh, hs, h⟩)
        · exact Or.inl h
        · rcases List.mem_cons.1 hj with rfl | hj
          · exact absurd h (hno k x l sh hs)
          · exact Or.inr ⟨j, hj, l, sh, hs, h⟩
    by_cases hsel : Selected set i.net
    · obtain ⟨hd, hl⟩ := hi i (by simp) hsel
      have hsel' := (sel_iff set i.net).2 hsel
      cases hdat : i.inst.data with
      | none =>
        refine skip ?_ ?_
        · rintro k x l sh hs ⟨s, hs', -⟩
          rw [layerShape_data R _ _ hdat] at hs
          cases hs
          cases hs'
        · rw [fillInsts, hsel']
          simp [hd, hdat]
      | some d =>
        obtain ⟨m1, a1, a2, a3⟩ := fillLayers_ok R L set i hl
          ((max i.inst.top i.inst.bot - min i.inst.top i.inst.bot).toNat + 1) (min i.inst.top i.inst.bot) ms
        obtain ⟨ms', h1, h2, h3⟩ := ih his m1
        have hkeys : Keyed m1 = Keyed ms := funext fun k => propext (a2 k)
        refine ⟨ms', ?_, fun k => by rw [h2, a2], fun k x => ?_⟩
        · rw [fillInsts, hsel']
          simp [hd, hdat, a1, h1]
        · rw [h3, a3, hkeys]
          constructor
          · rintro ((h | ⟨l, -, -, h⟩) | ⟨j, hj, h⟩)
            · exact Or.inl h
            · exact Or.inr ⟨i, by simp, l, h⟩
            · exact Or.inr ⟨j, List.mem_cons_of_mem _ hj, h⟩
          · rintro (h | ⟨j, hj, l, sh, hs, h⟩)
            · exact Or.inl (Or.inl h)
            · rcases List.mem_cons.1 hj with rfl | hj
              · by_cases hr : min j.inst.top j.inst.bot ≤ l ∧ l ≤ max j.inst.top j.inst.bot
                · exact Or.inl (Or.inr ⟨l, hr.1, by push_cast; omega, sh, hs, h⟩)
                · rw [layerShape_range R _ _ hr] at hs
                  cases hs
                  obtain ⟨s, hs', -⟩ := h
                  cases hs'
              · exact Or.inr ⟨j, hj, l, sh, hs, h⟩
    · refine skip ?_ ?_
      · rintro k x l sh hs ⟨s, -, -, -, h, -⟩
        exact hsel h
      · rw [fillInsts, if_pos]
        rw [← sel_iff] at hsel
        simpa using hsel

theorem mergersFrom_ok (n : Nat) (layers : List Layer) : ∀ (i : Nat) (ms : Mergers K), (∀ k x, ¬ Has ms k x) →
    (∀ k, Keyed (mergersFrom .initial n i layers ms) k ↔ Keyed ms k ∨ ∃ l ∈ layers, l.id = k) ∧
    (∀ k x, ¬ Has (mergersFrom .initial n i layers ms) k x) := by
  induction layers with
  | nil => intro i ms h; simpa [mergersFrom] using h
  | cons l ls ih =>
    intro i ms h
    rw [mergersFrom]
    simp only [Settings.initial, Bool.not_true, Bool.false_and, Bool.false_eq_true, if_false]
    obtain ⟨i1, i2⟩ := ih (i + 1) (if ms.any (·.1 == l.id) then ms else ms ++ [(l.id, [])]) (by
      split
      · exact h
      · rintro k x ⟨m, hm, h1, h2⟩
        rcases List.mem_append.1 hm with hm | hm
        · exact h k x ⟨m, hm, h1, h2⟩
        · simp only [List.mem_singleton] at hm
          subst hm
          cases h2)
    refine ⟨fun k => ?_, i2⟩
    rw [show mergersFrom ⟨true, true, false, []⟩ n (i + 1) ls _ = mergersFrom .initial n (i + 1) ls _ from rfl, i1]
    by_cases hk : Keyed ms l.id
    · rw [if_pos ((keyed_any _ _).2 hk)]
      constructor
      · rintro (h | ⟨l', hl', h⟩)
        · exact Or.inl h
        · exact Or.inr ⟨l', List.mem_cons_of_mem _ hl', h⟩
      · rintro (h | ⟨l', hl', h⟩)
        · exact Or.inl h
        · rcases List.mem_cons.1 hl' with rfl | hl'
          · exact Or.inl (h ▸ hk)
          · exact Or.inr ⟨l', hl', h⟩
    · rw [if_neg (fun h => hk ((keyed_any _ _).1 h))]
      have : Keyed (ms ++ [(l.id, [])]) k ↔ Keyed ms k ∨ l.id = k := by
        simp [Keyed, or_and_right, exists_or]
      rw [this]
      constructor
      · rintro ((h | h) | ⟨l', hl', h⟩)
        · exact Or.inl h
        · exact Or.inr ⟨l, by simp, h⟩
        · exact Or.inr ⟨l', List.mem_cons_of_mem _ hl', h⟩
      · rintro (h | ⟨l', hl', h⟩)
        · exact Or.inl (Or.inl h)
        · rcases List.mem_cons.1 hl' with rfl | hl'
          · exact Or.inl (Or.inr h)
          · exact Or.inr ⟨l', hl', h⟩

theorem construct_ok (layers : List Layer) : (∀ k, Keyed (construct layers : Mergers K) k ↔ ∃ l ∈ layers, l.id = k) ∧
    ∀ k x, ¬ Has (construct layers : Mergers K) k x := by
  obtain ⟨h1, h2⟩ := mergersFrom_ok (K := K) layers.length layers 0 [] (by simp [Has])
  exact ⟨fun k => by rw [construct, h1]; simp [Keyed], h2⟩

/-- everything but the order of removal -/
theorem merge_ok (inside : List (K × K) → K × K → Prop) (R : Int → K × K) (L : Lib K) (run : Objs K → Objs K)
    (hrun : RunOK inside run) (ord : Mergers K → Mergers K) (hord : ∀ l, (ord l).Perm l) (del : List Nat → List Nat)
    (layers : List Layer) (set : Settings) (prims : List (Prim K)) (insts : List (Inst K))
    (hi : ∀ i ∈ insts, Selected set i.net → i.hasDef = true ∧ ∀ l, ∃ r, i.inst.layerShape R l = .ok r) :
    ∃ new rem, merge R L run ord del layers set prims insts = .ok (Util.fillBack prims new (del rem)) ∧
      rem.Pairwise (· < ·) ∧ (∀ j ∈ rem, j < prims.length) ∧
      (∃ dec : (q : Prim K) → Decidable (¬ Merged layers set q),
        Util.keep rem 0 prims = prims.filter fun q => @decide _ (dec q)) ∧
      (∀ q ∈ new, Merged layers set q) ∧
      (∀ l n p, Metal inside L new l n p ↔ ((∃ y ∈ layers, y.id = l) ∧ Selected set n) ∧
        (Metal inside L prims l n p ∨ (set.padstacks = true ∧ Pads inside R L insts l n p))) := by
  classical
  obtain ⟨c1, c2⟩ := construct_ok (K := K) layers
  have hck : Keyed (construct layers : Mergers K) = fun k => ∃ l ∈ layers, l.id = k := funext fun k => propext (c1 k)
  obtain ⟨p1, p2, p3, p4, p5⟩ := fillPrims_ok L set prims 0 (construct layers)
  rw [hck] at p2 p5
  have hstep : ∃ ms, (if set.padstacks then fillInsts R L set insts (fillPrims L set 0 prims (construct layers)).1
        else .ok (fillPrims L set 0 prims (construct layers)).1) = .ok ms ∧
      (∀ k x, Has ms k x ↔ (∃ q ∈ prims, ∃ sh, q.geom = some sh ∧
          Adds L set (fun k => ∃ l ∈ layers, l.id = k) q.net q.layer sh k x) ∨
        (set.padstacks = true ∧ ∃ i ∈ insts, ∃ l sh, i.inst.layerShape R l = .ok sh ∧
          Adds L set (fun k => ∃ l ∈ layers, l.id = k) i.net l sh k x)) := by
    by_cases hp : set.padstacks = true
    · obtain ⟨ms, f1, f2, f3⟩ := fillInsts_ok R L set insts hi (fillPrims L set 0 prims (construct layers)).1
      refine ⟨ms, by rw [if_pos hp, f1], fun k x => ?_⟩
      have hk : Keyed (fillPrims L set 0 prims (construct layers)).1 = fun k => ∃ l ∈ layers, l.id = k :=
        funext fun k => propext ((p1 k).trans (c1 k))
      rw [hk] at f3
      rw [f3, p2]
      simp [c2, hp]
    · refine ⟨_, by rw [if_neg hp], fun k x => ?_⟩
      rw [p2]
      simp [c2, hp]
  obtain ⟨ms, h1, h2⟩ := hstep
  refine ⟨(ord (ms.map fun m => (m.1, run m.2))).flatMap primsOf, (fillPrims L set 0 prims (construct layers)).2, ?_, p3,
    fun j hj => by have := p4 j hj; omega, ⟨fun q => Classical.dec _, ?_⟩, ?_, ?_⟩
  · unfold merge
    simp only [h1, Res.bind_ok]
  · rw [p5]
    apply List.filter_congr
    intro q _
    rw [decide_eq_decide]
    exact Iff.rfl
  · intro q hq
    obtain ⟨m, hm, hq⟩ := List.mem_flatMap.1 hq
    rw [(hord _).mem_iff, List.mem_map] at hm
    obtain ⟨m, hm, rfl⟩ := hm
    unfold primsOf at hq
    obtain ⟨o, ho, rfl⟩ := List.mem_map.1 hq
    refine ⟨⟨_, rfl, valid_shapeOf _ (hrun.valid _ _ ho)⟩, ?_⟩
    obtain ⟨o', ho', hn⟩ := hrun.nets _ _ ho
    rcases (h2 m.1 o').1 ⟨m, hm, rfl, ho'⟩ with ⟨q, -, sh, -, s, -, -, hk, hsel, e1, e2⟩ | ⟨-, i, -, l, sh, -, s, -, -, hk, hsel, e1, e2⟩
    · exact ⟨e1 ▸ hk, by simp only [← hn, e2]; exact hsel⟩
    · exact ⟨e1 ▸ hk, by simp only [← hn, e2]; exact hsel⟩
  · intro l n p
    have e1 : Metal inside L ((ord (ms.map fun m => (m.1, run m.2))).flatMap primsOf) l n p ↔
        ∃ m ∈ ms, m.1 = l ∧ ∃ o ∈ run m.2, o.1 = n ∧ Covers inside o.2 p := by
      unfold Metal
      constructor
      · rintro ⟨q, hq, a, b, s, c, d, e⟩
        obtain ⟨m, hm, hq⟩ := List.mem_flatMap.1 hq
        rw [(hord _).mem_iff, List.mem_map] at hm
        obtain ⟨m, hm, rfl⟩ := hm
        unfold primsOf at hq
        obtain ⟨o, ho, rfl⟩ := List.mem_map.1 hq
        simp only [Option.some.injEq] at c
        subst c
        rw [pwh_shapeOf] at e
        exact ⟨m, hm, a, o, ho, b, e⟩
      · rintro ⟨m, hm, a, o, ho, b, e⟩
        refine ⟨⟨m.1, o.1, some (some (shapeOf o.2)), 0⟩, ?_, a, b, _, rfl, valid_shapeOf _ (hrun.valid _ _ ho), by rwa [pwh_shapeOf]⟩
        refine List.mem_flatMap.2 ⟨(m.1, run m.2), (hord _).mem_iff.2 (List.mem_map.2 ⟨m, hm, rfl⟩), ?_⟩
        exact List.mem_map.2 ⟨o, ho, rfl⟩
    have e2 : (∃ m ∈ ms, m.1 = l ∧ ∃ o ∈ run m.2, o.1 = n ∧ Covers inside o.2 p) ↔ ∃ x, Has ms l x ∧ x.1 = n ∧ Covers inside x.2 p := by
      constructor
      · rintro ⟨m, hm, a, h⟩
        obtain ⟨o, ho, b⟩ := (hrun.covers _ _ _).1 h
        exact ⟨o, ⟨m, hm, a, ho⟩, b⟩
      · rintro ⟨x, ⟨m, hm, a, hx⟩, b⟩
        exact ⟨m, hm, a, (hrun.covers _ _ _).2 ⟨x, hx, b⟩⟩
    rw [e1, e2]
    constructor
    · rintro ⟨x, hx, hn, hc⟩
      rcases (h2 l x).1 hx with ⟨q, hq, sh, hg, s, rfl, hv, hk, hsel, rfl, rfl⟩ | ⟨hp, i, hi', l', sh, hs, s, rfl, hv, hk, hsel, rfl, rfl⟩
      · exact ⟨⟨hk, hn ▸ hsel⟩, Or.inl ⟨q, hq, rfl, hn, s, hg, hv, hc⟩⟩
      · exact ⟨⟨hk, hn ▸ hsel⟩, Or.inr ⟨hp, i, hi', hn, s, hs, hv, hc⟩⟩
    · rintro ⟨⟨hk, hsel⟩, ⟨q, hq, rfl, rfl, s, hg, hv, hc⟩ | ⟨hp, i, hi', rfl, s, hs, hv, hc⟩⟩
      · exact ⟨(q.net, s.pwh L), (h2 _ _).2 (Or.inl ⟨q, hq, _, hg, s, rfl, hv, hk, hsel, rfl, rfl⟩), rfl, hc⟩
      · exact ⟨(i.net, s.pwh L), (h2 _ _).2 (Or.inr ⟨hp, i, hi', l, _, hs, s, rfl, hv, hk, hsel, rfl, rfl⟩), rfl, hc⟩

/-- **C98**, the part that holds.  If the unordered set of positions is gone through in descending order (see C21), and
the padstack instances of selected nets have definitions and shapes that are defined:
the primitives afterwards are the ones that are not merged, unchanged, and merged ones; every net covers on every
layer the points it covered before, and, for merged layers and nets, those of its padstack instances if they are
included.  Missing: other orders of removal (`c98_order_refuted`), instances without definition
(`c98_definition_refuted`), and the settings on dielectric layers (`c98_dielectric_refuted`). -/
theorem c98_merge_partial (inside : List (K × K) → K × K → Prop) (R : Int → K × K) (L : Lib K) (run : Objs K → Objs K)
    (hrun : RunOK inside run) (ord : Mergers K → Mergers K) (hord : ∀ l, (ord l).Perm l) (del : List Nat → List Nat)
    (hdel : ∀ l, (del l).Perm l ∧ (l.Nodup → (del l).Pairwise (· > ·)))
    (layers : List Layer) (set : Settings) (prims : List (Prim K)) (insts : List (Inst K))
    (hi : ∀ i ∈ insts, Selected set i.net → i.hasDef = true ∧ ∀ l, ∃ r, i.inst.layerShape R l = .ok r) :
    ∃ out, merge R L run ord del layers set prims insts = .ok out ∧
      (∃ kept new, out.Perm (kept ++ new) ∧ kept.Sublist prims ∧ (∀ q ∈ prims, q ∈ kept ↔ ¬ Merged layers set q) ∧
        ∀ q ∈ new, Merged layers set q) ∧
      (∀ l n p, Metal inside L out l n p ↔ Metal inside L prims l n p ∨
        ((∃ y ∈ layers, y.id = l) ∧ Selected set n ∧ set.padstacks = true ∧ Pads inside R L insts l n p)) ∧
      (∀ l n p, Metal inside L out l n p ∨ Pads inside R L insts l n p ↔
        Metal inside L prims l n p ∨ Pads inside R L insts l n p) := by
  obtain ⟨new, rem, h1, h2, h3, ⟨dec, h4⟩, h5, h6⟩ := merge_ok inside R L run hrun ord hord del layers set prims insts hi
  obtain ⟨d1, d2⟩ := hdel rem
  have hnd : rem.Nodup := h2.imp fun h => Nat.ne_of_lt h
  have hperm := Util.c21_descending_partial prims new (del rem) (d2 hnd) (fun i hi => h3 i (d1.mem_iff.1 hi))
  have hk : Util.keep (del rem) 0 prims = Util.keep rem 0 prims :=
    Util.keep_congr _ _ _ _ fun j _ _ => d1.mem_iff
  rw [hk] at hperm
  have hmem : ∀ q ∈ prims, q ∈ Util.keep rem 0 prims ↔ ¬ Merged layers set q := by
    intro q hq
    rw [h4, List.mem_filter, decide_eq_true_iff]
    exact ⟨fun h => h.2, fun h => ⟨hq, h⟩⟩
  have hsub : (Util.keep rem 0 prims).Sublist prims := by
    rw [h4]
    exact List.filter_sublist
  have hreg : ∀ l n p, Metal inside L (Util.fillBack prims new (del rem)) l n p ↔ Metal inside L prims l n p ∨
        ((∃ y ∈ layers, y.id = l) ∧ Selected set n ∧ set.padstacks = true ∧ Pads inside R L insts l n p) := by
    intro l n p
    have e : Metal inside L (Util.fillBack prims new (del rem)) l n p ↔
        Metal inside L (Util.keep rem 0 prims) l n p ∨ Metal inside L new l n p := by
      unfold Metal
      simp only [hperm.mem_iff, List.mem_append, or_and_right, exists_or]
    rw [e, h6]
    constructor
    · rintro (⟨q, hq, h⟩ | ⟨⟨hk, hs⟩, h | h⟩)
      · exact Or.inl ⟨q, hsub.subset hq, h⟩
      · exact Or.inl h
      · exact Or.inr ⟨hk, hs, h⟩
    · rintro (⟨q, hq, rfl, rfl, s, hg, hv, hc⟩ | ⟨hk, hs, h⟩)
      · by_cases hm : Merged layers set q
        · exact Or.inr ⟨hm.2, Or.inl ⟨q, hq, rfl, rfl, s, hg, hv, hc⟩⟩
        · exact Or.inl ⟨q, (hmem q hq).2 hm, rfl, rfl, s, hg, hv, hc⟩
      · exact Or.inr ⟨⟨hk, hs⟩, Or.inr h⟩
  refine ⟨_, h1, ⟨_, new, hperm, hsub, hmem, h5⟩, hreg, fun l n p => ?_⟩
  rw [hreg]
  tauto

/-! ### what is wrong -/

theorem fillOne_no (L : Lib K) (set : Settings) (ms : Mergers K) (net layer : Int) (shape : Option (Shape K))
    (h : ¬ ((∃ s, shape = some s ∧ s.isValid = true) ∧ Keyed ms layer ∧ Selected set net)) :
    fillOne L set ms net layer shape = (ms, false) := by
  have h2 := mt (fillOne_ok L set ms net layer shape).1.1 h
  revert h2
  unfold fillOne
  cases shape with
  | none => simp
  | some s =>
    simp only
    split
    · simp
    · split
      · simp
      · split <;> simp

theorem fillPrims_skip (L : Lib K) (set : Settings) (l r : List (Prim K)) (ms : Mergers K)
    (h : ∀ q ∈ l, ¬ ((∃ s, q.geom = some (some s) ∧ s.isValid = true) ∧ Keyed ms q.layer ∧ Selected set q.net)) :
    ∀ i, fillPrims L set i (l ++ r) ms = fillPrims L set (i + l.length) r ms := by
  induction l with
  | nil => intro i; simp
  | cons q l ih =>
    intro i
    have ih' := ih (fun x hx => h x (List.mem_cons_of_mem _ hx)) (i + 1)
    rw [List.cons_append, fillPrims, List.length_cons, show i + (l.length + 1) = i + 1 + l.length by omega, ← ih']
    cases hg : q.geom with
    | none => rfl
    | some sh =>
      have : fillOne L set ms q.net q.layer sh = (ms, false) := by
        apply fillOne_no
        rintro ⟨⟨s, h1, h2⟩, h3⟩
        exact h q (by simp) ⟨⟨s, by rw [hg, h1], h2⟩, h3⟩
      simp only [this, Bool.false_eq_true, if_false]

theorem fillPrims_take (L : Lib K) (set : Settings) (y : Layer) (os : Objs K) (q : Prim K) (qs : List (Prim K)) (s : Shape K)
    (hg : q.geom = some (some s)) (hv : s.isValid = true) (hl : q.layer = y.id) (hs : Selected set q.net) (i : Nat) :
    fillPrims L set i (q :: qs) [(y.id, os)] =
      ((fillPrims L set (i + 1) qs [(y.id, os ++ [(q.net, s.pwh L)])]).1,
        i :: (fillPrims L set (i + 1) qs [(y.id, os ++ [(q.net, s.pwh L)])]).2) := by
  have : fillOne L set [(y.id, os)] q.net q.layer (some s) = ([(y.id, os ++ [(q.net, s.pwh L)])], true) := by
    unfold fillOne
    simp only [hv, hl, Bool.not_true, Bool.false_eq_true, if_false, (sel_iff set q.net).2 hs, addTo, object_eq]
    simp
  rw [fillPrims]
  simp only [hg, this, if_true]

/-- **C98** fails for other orders of removal.  Take any layout whose last three primitives are the only ones to be merged and
become one polygon: if the unordered set yields the middle one first, then the first and the last, everything the
first one alone covers is lost. -/
theorem c98_order_refuted (inside : List (K × K) → K × K → Prop) (R : Int → K × K) (L : Lib K) (run : Objs K → Objs K)
    (ord : Mergers K → Mergers K) (hord : ∀ l, (ord l).Perm l) (del : List Nat → List Nat) (y : Layer) (set : Settings)
    (l : List (Prim K)) (a b c : Prim K) (sa sb sc : Shape K) (insts : List (Inst K)) (net : Int) (o : Pwh K) (p : K × K)
    (hset : set.padstacks = false) (hsel : Selected set net) (hl : ∀ q ∈ l, ¬ Merged [y] set q)
    (hdel : ∀ k, del [k, k + 1, k + 2] = [k + 1, k, k + 2])
    (ha : a.layer = y.id ∧ a.net = net ∧ a.geom = some (some sa) ∧ sa.isValid = true)
    (hb : b.layer = y.id ∧ b.net = net ∧ b.geom = some (some sb) ∧ sb.isValid = true)
    (hc : c.layer = y.id ∧ c.net = net ∧ c.geom = some (some sc) ∧ sc.isValid = true)
    (hrun : run [(net, sa.pwh L), (net, sb.pwh L), (net, sc.pwh L)] = [(net, o)])
    (hpa : Covers inside (sa.pwh L) p) (hpc : ¬ Covers inside (sc.pwh L) p) :
    merge R L run ord del [y] set (l ++ [a, b, c]) insts = .ok (l ++ [c]) ∧
      Metal inside L (l ++ [a, b, c]) y.id net p ∧ ¬ Metal inside L (l ++ [c]) y.id net p := by
  have hcon : (construct [y] : Mergers K) = [(y.id, [])] := by
    simp [construct, mergersFrom, Settings.initial]
  have hk : ∀ k, Keyed ([(y.id, [])] : Mergers K) k ↔ y.id = k := by simp [Keyed]
  have hf : fillPrims L set 0 (l ++ [a, b, c]) (construct [y]) =
      ([(y.id, [(net, sa.pwh L), (net, sb.pwh L), (net, sc.pwh L)])], [l.length, l.length + 1, l.length + 2]) := by
    rw [hcon, fillPrims_skip L set l _ _ (fun q hq => by
      rintro ⟨h1, h2, h3⟩
      rw [hk] at h2
      exact hl q hq ⟨h1, ⟨y, by simp, h2⟩, h3⟩)]
    rw [fillPrims_take L set y _ a _ sa ha.2.2.1 ha.2.2.2 ha.1 (ha.2.1 ▸ hsel),
      fillPrims_take L set y _ b _ sb hb.2.2.1 hb.2.2.2 hb.1 (hb.2.1 ▸ hsel),
      fillPrims_take L set y _ c _ sc hc.2.2.1 hc.2.2.2 hc.1 (hc.2.1 ▸ hsel)]
    simp [fillPrims, ha.2.1, hb.2.1, hc.2.1]
  refine ⟨?_, ⟨a, by simp, ha.1, ha.2.1, sa, ha.2.2.1, ha.2.2.2, hpa⟩, ?_⟩
  · unfold merge
    simp only [hf, hset, Bool.false_eq_true, if_false, Res.bind_ok, hdel, List.map_cons, List.map_nil, hrun]
    rw [(List.perm_singleton.1 (hord _))]
    simp only [List.flatMap_cons, List.flatMap_nil, primsOf, List.map_cons, List.map_nil, List.append_nil]
    rw [Util.c21_order_refuted]
  · rintro ⟨q, hq, h1, h2, s, h3, h4, h5⟩
    rcases List.mem_append.1 hq with hq | hq
    · exact hl q hq ⟨⟨s, h3, h4⟩, ⟨y, by simp, h1.symm⟩, h2 ▸ hsel⟩
    · simp only [List.mem_singleton] at hq
      subst hq
      rw [hc.2.2.1] at h3
      cases h3
      exact hpc h5

/-- The settings that leave out dielectric layers, or the outermost ones, have no effect: they are set when the mergers
exist already. -/
theorem c98_dielectric_refuted (R : Int → K × K) (L : Lib K) (run : Objs K → Objs K) (ord : Mergers K → Mergers K)
    (del : List Nat → List Nat) (layers : List Layer) (set : Settings) (prims : List (Prim K)) (insts : List (Inst K)) (b c : Bool) :
    merge R L run ord del layers { set with dielectric := b, skipTopBot := c } prims insts =
      merge R L run ord del layers set prims insts := by
  have h1 : ∀ ms net layer (sh : Option (Shape K)), fillOne L { set with dielectric := b, skipTopBot := c } ms net layer sh =
      fillOne L set ms net layer sh := fun _ _ _ _ => rfl
  have h2 : ∀ (qs : List (Prim K)) i ms, fillPrims L { set with dielectric := b, skipTopBot := c } i qs ms = fillPrims L set i qs ms := by
    intro qs
    induction qs with
    | nil => intro i ms; rfl
    | cons q qs ih =>
      intro i ms
      rw [fillPrims, fillPrims]
      simp only [h1, ih]
  have h3 : ∀ (i : Inst K) n lyr ms, fillLayers R L { set with dielectric := b, skipTopBot := c } i n lyr ms =
      fillLayers R L set i n lyr ms := by
    intro i n
    induction n with
    | zero => intro lyr ms; rfl
    | succ n ih => intro lyr ms; simp only [fillLayers, h1, ih]
  have h4 : ∀ (is : List (Inst K)) ms, fillInsts R L { set with dielectric := b, skipTopBot := c } is ms = fillInsts R L set is ms := by
    intro is
    induction is with
    | nil => intro ms; rfl
    | cons i is ih => intro ms; simp only [fillInsts, h3, ih]
  unfold merge
  simp only [h2, h4]

/-- A padstack instance of a selected net without definition: a null pointer is dereferenced. -/
theorem c98_definition_refuted (R : Int → K × K) (L : Lib K) (run : Objs K → Objs K) (ord : Mergers K → Mergers K)
    (del : List Nat → List Nat) (layers : List Layer) (set : Settings) (prims : List (Prim K)) (pre post : List (Inst K)) (i : Inst K)
    (hp : set.padstacks = true) (hsel : Selected set i.net) (hd : i.hasDef = false)
    (hi : ∀ i ∈ pre, Selected set i.net → i.hasDef = true ∧ ∀ l, ∃ r, i.inst.layerShape R l = .ok r) :
    merge R L run ord del layers set prims (pre ++ i :: post) = .ub := by
  have key : ∀ (pre : List (Inst K)), (∀ i ∈ pre, Selected set i.net → i.hasDef = true ∧ ∀ l, ∃ r, i.inst.layerShape R l = .ok r) →
      ∀ ms, fillInsts R L set (pre ++ i :: post) ms = .ub := by
    intro pre
    induction pre with
    | nil =>
      intro _ ms
      rw [List.nil_append, fillInsts, (sel_iff set i.net).2 hsel]
      simp [hd]
    | cons j pre ih =>
      intro h ms
      have ih' := ih (fun x hx => h x (List.mem_cons_of_mem _ hx))
      rw [List.cons_append, fillInsts]
      by_cases hj : Selected set j.net
      · obtain ⟨h1, h2⟩ := h j (by simp) hj
        rw [(sel_iff set j.net).2 hj]
        simp only [Bool.false_eq_true, if_false, h1, Bool.not_true]
        cases hdat : j.inst.data with
        | none => exact ih' ms
        | some d =>
          obtain ⟨m1, a1, -⟩ := fillLayers_ok R L set j h2
            ((max j.inst.top j.inst.bot - min j.inst.top j.inst.bot).toNat + 1) (min j.inst.top j.inst.bot) ms
          simp only [a1, Res.bind_ok, ih']
      · rw [if_pos, ih']
        rw [← sel_iff] at hj
        simpa using hj
  unfold merge
  simp only [hp, if_true, key pre hi, Res.bind_ub]

/-! ### example -/

/-- a library that merges nothing, with boxes for polygons -/
def exInside (ps : List (ℚ × ℚ)) (p : ℚ × ℚ) : Prop := 3 ≤ ps.length ∧ InBox (extent ps) p

def exRun (os : Objs ℚ) : Objs ℚ := os.filter fun o => 3 ≤ o.2.outline.length

example : RunOK exInside exRun where
  covers os net p := by
    constructor
    · rintro ⟨o, ho, h⟩
      exact ⟨o, (List.mem_filter.1 ho).1, h⟩
    · rintro ⟨o, ho, h1, h2, h3⟩
      exact ⟨o, List.mem_filter.2 ⟨ho, by simpa using h2.1⟩, h1, h2, h3⟩
  valid os o ho := by simpa using (List.mem_filter.1 ho).2
  nets os o ho := ⟨o, (List.mem_filter.1 ho).1, rfl⟩

/-- descending order -/
example : ∀ l : List Nat, (l.insertionSort (· ≥ ·)).Perm l ∧ (l.Nodup → (l.insertionSort (· ≥ ·)).Pairwise (· > ·)) := by
  intro l
  refine ⟨List.perm_insertionSort _ l, fun h => ?_⟩
  have h1 := List.pairwise_insertionSort (· ≥ ·) l
  have h2 : (l.insertionSort (· ≥ ·)).Nodup := (List.perm_insertionSort (· ≥ ·) l).nodup_iff.2 h
  exact h1.imp₂ (fun a b h3 h4 => lt_of_le_of_ne h3 (Ne.symm h4)) h2

/-- a text, two rectangles of net 1 on a dielectric layer, a polygon of net 2 and one that is not valid -/
def exPrims : List (Prim ℚ) :=
  [⟨0, 1, none, 7⟩, ⟨0, 1, some (some (.rect ⟨(0, 0), (2, 2)⟩)), 1⟩, ⟨0, 1, some (some (.rect ⟨(1, 1), (3, 3)⟩)), 2⟩,
    ⟨1, 2, some (some (.polygon [(0, 0), (1, 0), (1, 1)])), 3⟩, ⟨1, 2, some (some (.polygon [(0, 0), (1, 0)])), 4⟩]

def exInst : Inst ℚ := ⟨1, true, exPInst⟩

example : ∀ l, ∃ r, exPInst.layerShape exR l = .ok r := by
  intro l
  unfold PInst.layerShape
  split
  · exact ⟨_, rfl⟩
  · rename_i h
    have : l = 0 ∨ l = 1 ∨ l = 2 := by
      have e1 : min exPInst.top exPInst.bot = 0 := by decide
      have e2 : max exPInst.top exPInst.bot = 2 := by decide
      omega
    rcases this with rfl | rfl | rfl <;> exact ⟨_, rfl⟩

/-- With the first net selected, and dielectric layers left out in vain: tags of what is there afterwards; the text and
the primitives of net 2 stay, and the two rectangles and the padstack instance on two layers are drawn anew. -/
example : (match merge exR exLib exRun id List.reverse [⟨0, true⟩, ⟨1, false⟩] ⟨true, false, true, [1]⟩ exPrims [exInst] with
  | .ok out => out.map fun q => (q.layer, q.net, q.tag)
  | _ => []) = [(0, 1, 7), (0, 1, 0), (1, 1, 0), (1, 2, 3), (1, 2, 4), (0, 1, 0), (0, 1, 0)] := by decide +kernel

example : Merged [⟨0, true⟩, ⟨1, false⟩] ⟨true, false, true, [1]⟩ (exPrims[1]) :=
  ⟨⟨_, rfl, by decide +kernel⟩, ⟨_, List.mem_cons_self, rfl⟩, Or.inr (by decide)⟩

/-- without definition -/
example : merge exR exLib exRun id List.reverse [⟨0, true⟩] ⟨true, false, true, [1]⟩ exPrims [⟨1, false, exPInst⟩] = .ub :=
  c98_definition_refuted _ _ _ _ _ _ _ _ [] [] _ rfl (Or.inr (by decide)) rfl (by simp)

/-- three rectangles that become one, removed in a bad order: the last one stays alone -/
def exDel : List Nat → List Nat
  | [a, b, c] => [b, a, c]
  | l => l

def exRun1 (os : Objs ℚ) : Objs ℚ := os.take 1

example : (∀ k, exDel [k, k + 1, k + 2] = [k + 1, k, k + 2]) ∧
    (match merge exR exLib exRun1 id exDel [⟨0, false⟩] ⟨false, true, false, []⟩
      (exPrims.take 3 ++ [⟨0, 1, some (some (.rect ⟨(2, 2), (4, 4)⟩)), 3⟩]) [] with
    | .ok out => out.map fun q => (q.layer, q.net, q.tag)
    | _ => []) = [(0, 1, 7), (0, 1, 3)] := ⟨fun _ => rfl, by decide +kernel⟩

end Ecad.PMerge
