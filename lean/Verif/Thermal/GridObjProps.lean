import Verif.Thermal.GridObjModel
import Verif.Thermal.TableProps
import Mathlib.Tactic.Ring
import Mathlib.Data.List.Chain
/-!
C130: what a grid thermal model holds after any calls, and what a power table says about its samples.
-/
namespace Ecad.GridObj
open Ecad.Ctm Ecad.GridT

variable {K : Type} [Field K] [LinearOrder K]

/-! ## specification -/

/-- no call that sets the name of a neighbour by hand -/
def NoNames (cs : List (Call K)) : Prop := ∀ c ∈ cs, ∀ i s, c ≠ .layer i (.top s) ∧ c ≠ .layer i (.bot s)

/-- no call on layer `i` -/
def Apart (i : Nat) (cs : List (Call K)) : Prop := ∀ c ∈ cs, (∀ d, c ≠ .layer i d) ∧ ∀ p, c ≠ .power i p

/-- no call that gives a layer a negative thickness by hand -/
def NoNegative (cs : List (Call K)) : Prop := ∀ c ∈ cs, ∀ i t, c = .layer i (.thickness t) → 0 ≤ t

/-- neighbouring layers know each other's names -/
def Linked (ls : List (GLay K Nat)) : Prop :=
  ∀ (i : Nat) (a b : GLay K Nat), ls[i]? = some a → ls[i + 1]? = some b → a.bot = b.name ∧ b.top = a.name

/-! ## appending -/

theorem append_cases (o : Obj K) (l : GLay K Nat) :
    ((l.thick < 0 ∨ l.size ≠ o.size) ∧ o.append l = (o, .index invalidIndex)) ∨
    (0 ≤ l.thick ∧ l.size = o.size ∧ o.layers = [] ∧ o.append l = ({ o with layers := [l] }, .index 0)) ∨
    (0 ≤ l.thick ∧ l.size = o.size ∧ ∃ init b, o.layers = init ++ [b] ∧
      o.append l = ({ o with layers := init ++ [{ b with bot := l.name }, { l with top := b.name }] }, .index (init.length + 1))) := by
  unfold Obj.append
  by_cases h1 : l.thick < 0
  · left; rw [if_pos h1]; exact ⟨.inl h1, rfl⟩
  by_cases h2 : l.size = o.size
  · right
    rw [if_neg h1, if_neg (not_not.2 h2)]
    unfold appendLayer
    rw [if_neg h1, if_neg (not_not.2 h2)]
    rcases List.eq_nil_or_concat o.layers with h | ⟨init, b, h⟩
    · left; refine ⟨not_lt.1 h1, h2, h, ?_⟩; rw [h]; rfl
    · right
      refine ⟨not_lt.1 h1, h2, init, b, by simpa using h, ?_⟩
      rw [h]
      simp
  · left; rw [if_neg h1, if_pos h2]; exact ⟨.inr h2, rfl⟩

/-- C130, appending: a layer is refused exactly if its thickness is negative or its metal fraction does not have the size of the model; otherwise it is found at
the index given back, and no other layer changes, except that the layer above gets its name. -/
theorem c130_append (o : Obj K) (l : GLay K Nat) :
    ((o.append l).2 = .index invalidIndex ∧ (o.append l).1 = o ∨ (o.append l).2 = .index o.layers.length) ∧
    ((l.thick < 0 ∨ (match l.mf with | none => (0, 0) | some f => (f.w, f.h)) ≠ o.size) →
      (o.append l).2 = .index invalidIndex ∧ (o.append l).1 = o) ∧
    (0 ≤ l.thick → (match l.mf with | none => (0, 0) | some f => (f.w, f.h)) = o.size →
      (o.append l).2 = .index o.layers.length ∧ (o.append l).1.layers.length = o.layers.length + 1 ∧
      (∃ t, (o.append l).1.layers[o.layers.length]? = some { l with top := t }) ∧
      (∀ i, i + 1 < o.layers.length → (o.append l).1.layers[i]? = o.layers[i]?) ∧
      ∀ i b, i + 1 = o.layers.length → o.layers[i]? = some b →
        (o.append l).1.layers[i]? = some { b with bot := l.name } ∧
        (o.append l).1.layers[i + 1]? = some { l with top := b.name }) := by
  have hsz : l.size = (match l.mf with | none => (0, 0) | some f => (f.w, f.h)) := rfl
  rw [← hsz]
  rcases append_cases o l with ⟨h, e⟩ | ⟨h1, h2, h3, e⟩ | ⟨h1, h2, init, b, h3, e⟩
  · rw [e]
    refine ⟨.inl ⟨rfl, rfl⟩, fun _ => ⟨rfl, rfl⟩, fun a b => ?_⟩
    rcases h with h | h
    · exact absurd a (not_le.2 h)
    · exact absurd b h
  · rw [e, h3]
    refine ⟨.inr rfl, fun h => ?_, fun _ _ => ⟨rfl, rfl, ⟨l.top, rfl⟩, fun i hi => by simp at hi, fun i b hi => by simp at hi⟩⟩
    rcases h with h | h
    · exact absurd h1 (not_le.2 h)
    · exact absurd h2 h
  · rw [e, h3]
    refine ⟨.inr (by simp), fun h => ?_, fun _ _ => ⟨by simp, by simp, ⟨b.name, ?_⟩, fun i hi => ?_, fun i c hi hc => ?_⟩⟩
    · rcases h with h | h
      · exact absurd h1 (not_le.2 h)
      · exact absurd h2 h
    · simp
    · simp only [List.length_append, List.length_cons, List.length_nil] at hi
      rw [List.getElem?_append_left (by omega), List.getElem?_append_left (by omega)]
    · simp only [List.length_append, List.length_cons, List.length_nil] at hi
      have hi' : i = init.length := by omega
      subst hi'
      simp at hc
      subst hc
      simp

/-! ## histories -/

theorem run_inv {P : Obj K → Prop} {cs : List (Call K)} {o o' : Obj K} (h0 : P o)
    (hs : ∀ c ∈ cs, ∀ a r, P a → step a c = .ok r → P r.1) (h : run o cs = .ok o') : P o' := by
  induction cs generalizing o with
  | nil => simp only [run, Res.ok.injEq] at h; exact h ▸ h0
  | cons c cs ih =>
    rw [run] at h
    cases hc : step o c with
    | ok r =>
      rw [hc] at h
      exact ih (hs c List.mem_cons_self o r h0 hc) (fun d hd => hs d (List.mem_cons_of_mem _ hd)) h
    | ub => rw [hc] at h; simp at h
    | exn => rw [hc] at h; simp at h

/-- what a call does to the layers: an append, or one layer changed by a call on it -/
theorem step_layers {o : Obj K} {c : Call K} {r : Obj K × Ans} (h : step o c = .ok r) :
    r.1.size = o.size ∧
    ((∃ l, c = .append l ∧ r = o.append l) ∨
     ((∀ l, c ≠ .append l) ∧ r.1.layers = o.layers) ∨
     (∃ i l p, c = .power i p ∧ o.layers[i]? = some l ∧ r.1.layers = o.layers.set i (addPower l p).1) ∨
     ∃ i l d, c = .layer i d ∧ o.layers[i]? = some l ∧ r.1.layers = o.layers.set i (layerCall l d).1) := by
  cases c with
  | append l =>
    simp only [step, Res.ok.injEq] at h
    subst h
    refine ⟨?_, .inl ⟨l, rfl, rfl⟩⟩
    rcases append_cases o l with ⟨_, e⟩ | ⟨_, _, _, e⟩ | ⟨_, _, _, _, _, e⟩ <;> rw [e]
  | scale s =>
    simp only [step] at h
    split_ifs at h <;> simp only [Res.ok.injEq] at h <;> subst h <;> exact ⟨rfl, .inr (.inl ⟨by simp, rfl⟩)⟩
  | resolution x y =>
    simp only [step] at h
    split_ifs at h <;> simp only [Res.ok.injEq] at h <;> subst h <;> exact ⟨rfl, .inr (.inl ⟨by simp, rfl⟩)⟩
  | jump a b al =>
    simp only [step, Res.ok.injEq] at h
    subst h
    exact ⟨rfl, .inr (.inl ⟨by simp, rfl⟩)⟩
  | power i p =>
    simp only [step] at h
    cases hl : o.layers[i]? with
    | none => rw [hl] at h; simp at h
    | some l =>
      rw [hl] at h
      simp only [Res.ok.injEq] at h
      subst h
      exact ⟨rfl, .inr (.inr (.inl ⟨i, l, p, rfl, hl, rfl⟩))⟩
  | block t ll ur bc =>
    simp only [step, Res.ok.injEq] at h
    subst h
    refine ⟨?_, .inr (.inl ⟨by simp, ?_⟩)⟩ <;> cases t <;> rfl
  | layer i d =>
    simp only [step] at h
    cases hl : o.layers[i]? with
    | none => rw [hl] at h; simp at h
    | some l =>
      rw [hl] at h
      simp only [Res.ok.injEq] at h
      subst h
      exact ⟨rfl, .inr (.inr (.inr ⟨i, l, d, rfl, hl, rfl⟩))⟩

omit [LinearOrder K] in
theorem addPower_fields (l : GLay K Nat) (p : Option Nat) :
    (addPower l p).1.name = l.name ∧ (addPower l p).1.thick = l.thick ∧ (addPower l p).1.top = l.top ∧ (addPower l p).1.bot = l.bot ∧
      (addPower l p).1.mf = l.mf := by
  cases p <;> exact ⟨rfl, rfl, rfl, rfl, rfl⟩

omit [LinearOrder K] in
theorem layerCall_size (l : GLay K Nat) (d : LCall K) : (layerCall l d).1.size = l.size ∧ (layerCall l d).1.name = l.name := by
  cases d with
  | metal b => exact ⟨rfl, rfl⟩
  | thickness t => exact ⟨rfl, rfl⟩
  | top s => exact ⟨rfl, rfl⟩
  | bot s => exact ⟨rfl, rfl⟩
  | power p => cases p <;> exact ⟨rfl, rfl⟩
  | fraction m =>
    cases m with
    | none => exact ⟨rfl, rfl⟩
    | some f =>
      simp only [layerCall, setFraction]
      split_ifs with h
      · exact ⟨rfl, rfl⟩
      · exact ⟨not_not.1 h, rfl⟩

theorem mem_append_layers {o : Obj K} {l x : GLay K Nat} (h : x ∈ (o.append l).1.layers) :
    x ∈ o.layers ∨ (∃ b ∈ o.layers, ∃ s, x = { b with bot := s }) ∨ (0 ≤ l.thick ∧ l.size = o.size ∧ ∃ s, x = { l with top := s }) := by
  rcases append_cases o l with ⟨_, e⟩ | ⟨h1, h2, h3, e⟩ | ⟨h1, h2, init, b, h3, e⟩ <;> rw [e] at h
  · exact .inl h
  · simp only [List.mem_singleton] at h
    exact .inr (.inr ⟨h1, h2, l.top, h⟩)
  · simp only [List.mem_append, List.mem_cons, List.not_mem_nil, or_false] at h
    rw [h3]
    rcases h with h | h | h
    · exact .inl (by simp [h])
    · exact .inr (.inl ⟨b, by simp, l.name, h⟩)
    · exact .inr (.inr ⟨h1, h2, b.name, h⟩)

theorem sizes_run {size : Nat × Nat} {ref : K × K} {cs : List (Call K)} {o : Obj K} (h : run (Obj.new size ref) cs = .ok o) :
    o.size = size ∧ ∀ l ∈ o.layers, l.size = size := by
  refine run_inv (P := fun a => a.size = size ∧ ∀ l ∈ a.layers, l.size = size) ⟨rfl, by simp [Obj.new]⟩ ?_ h
  rintro c _ a r ⟨ha, hl⟩ hr
  obtain ⟨hsz, hc⟩ := step_layers hr
  refine ⟨hsz.trans ha, ?_⟩
  rcases hc with ⟨l, _, e⟩ | ⟨_, e⟩ | ⟨i, l, p, _, hi, e⟩ | ⟨i, l, d, _, hi, e⟩
  · intro x hx
    rw [e] at hx
    rcases mem_append_layers hx with hx | ⟨b, hb, s, rfl⟩ | ⟨_, h2, s, rfl⟩
    · exact hl x hx
    · exact hl b hb
    · exact h2.trans ha
  · rw [e]; exact hl
  · rw [e]
    intro x hx
    rcases List.mem_or_eq_of_mem_set hx with hx | rfl
    · exact hl x hx
    · have := hl l (List.mem_of_getElem? hi)
      unfold GLay.size at this ⊢
      rw [(addPower_fields l p).2.2.2.2]
      exact this
  · rw [e]
    intro x hx
    rcases List.mem_or_eq_of_mem_set hx with hx | rfl
    · exact hl x hx
    · rw [(layerCall_size l d).1]
      exact hl l (List.mem_of_getElem? hi)

/-- C130, metal fractions: after any calls every layer of a model with at least one cell has a metal fraction of the size of the model, so that every cell of it
can be read. -/
theorem c130_fractions {size : Nat × Nat} {ref : K × K} {cs : List (Call K)} {o : Obj K} (h : run (Obj.new size ref) cs = .ok o) {l : GLay K Nat}
    (hl : l ∈ o.layers) {x y : Nat} (hx : x < size.1) (hy : y < size.2) : ∃ v, fractionAt l x y = .ok v := by
  have := (sizes_run h).2 l hl
  unfold fractionAt
  unfold GLay.size at this
  cases hm : l.mf with
  | none => simp only [hm] at this; rw [← this] at hx; simp at hx
  | some f =>
    simp only [hm] at this
    rw [← this] at hx hy
    exact ⟨f.val x y, if_pos ⟨hx, hy⟩⟩

/-- C130 is false of metal fractions given later: a layer made without a metal fraction accepts only one without cells, so that it never fits a model with
cells. -/
theorem c130_fraction_refuted (name : String) (f : Frac K) :
    ((setFraction (newLayer name none) (some f)).2 = true ↔ f.w = 0 ∧ f.h = 0) ∧
    (0 < f.w → (setFraction (newLayer name none) (some f)).1 = newLayer name none) := by
  have hsz : (newLayer (K := K) name none).size = (0, 0) := rfl
  by_cases hc : f.w = 0 ∧ f.h = 0
  · refine ⟨iff_of_true ?_ hc, fun h => by omega⟩
    simp [setFraction, hsz, hc]
  · have : setFraction (newLayer name none) (some f) = (newLayer name none, false) := by
      unfold setFraction
      exact if_pos (by rw [hsz]; simpa using hc)
    rw [this]
    exact ⟨iff_of_false (by simp) hc, fun _ => rfl⟩

/-- names of a layer and of its neighbours -/
def names (l : GLay K Nat) : String × String × String := (l.name, l.top, l.bot)

omit [Field K] [LinearOrder K] in
theorem linked_names {ls : List (GLay K Nat)} :
    Linked ls ↔ (ls.map names).IsChain fun a b => a.2.2 = b.1 ∧ b.2.1 = a.1 := by
  rw [List.isChain_iff_getElem]
  constructor
  · intro h i hi
    simp only [List.length_map] at hi
    simp only [List.getElem_map, names]
    exact h i _ _ (List.getElem?_eq_getElem (by omega)) (List.getElem?_eq_getElem (by omega))
  · intro h i a b ha hb
    obtain ⟨h1, rfl⟩ := List.getElem?_eq_some_iff.1 ha
    obtain ⟨h2, rfl⟩ := List.getElem?_eq_some_iff.1 hb
    have := h i (by simpa using h2)
    simpa [names] using this

/-- C130, neighbours: after any calls, unless names of neighbours are set by hand, every layer has the name of the layer below as that of its lower neighbour and
the name of the layer above as that of its upper neighbour. -/
theorem c130_linked {size : Nat × Nat} {ref : K × K} {cs : List (Call K)} {o : Obj K} (h : run (Obj.new size ref) cs = .ok o) (hn : NoNames cs) :
    Linked o.layers := by
  rw [linked_names]
  refine run_inv (P := fun a => (a.layers.map names).IsChain fun a b => a.2.2 = b.1 ∧ b.2.1 = a.1) (by simp [Obj.new]) ?_ h
  intro c hcs a r ha hr
  obtain ⟨_, hc⟩ := step_layers hr
  have hset : ∀ (i : Nat) (l l' : GLay K Nat), a.layers[i]? = some l → names l' = names l → (a.layers.set i l').map names = a.layers.map names := by
    intro i l l' hi he
    rw [List.map_set, he]
    apply List.ext_getElem?
    intro j
    rw [List.getElem?_set]
    split_ifs with h1 h2
    · subst h1; simp [hi]
    · subst h1
      simp only [List.length_map, not_lt] at h2
      rw [List.getElem?_eq_none (by simpa using h2)]
    · rfl
  rcases hc with ⟨l, _, e⟩ | ⟨_, e⟩ | ⟨i, l, p, _, hi, e⟩ | ⟨i, l, d, rfl, hi, e⟩
  · rw [e]
    rcases append_cases a l with ⟨_, e⟩ | ⟨h1, h2, h3, e⟩ | ⟨h1, h2, init, b, h3, e⟩ <;> rw [e]
    · exact ha
    · simp
    · rw [h3] at ha
      simp only [List.map_append, List.map_cons, List.map_nil] at ha ⊢
      rw [List.isChain_append] at ha ⊢
      refine ⟨ha.1, by simp [names], fun x hx y hy => ?_⟩
      simp only [List.head?_cons, Option.mem_def, Option.some.injEq] at hy
      subst hy
      exact ha.2.2 x hx (names b) (by simp)
  · rw [e]; exact ha
  · rw [e, hset i l _ hi]
    · exact ha
    · obtain ⟨f1, _, f3, f4, _⟩ := addPower_fields l p
      simp [names, f1, f3, f4]
  · rw [e, hset i l _ hi]
    · exact ha
    · cases d with
      | metal b => rfl
      | thickness t => rfl
      | top s => exact absurd rfl (hn _ hcs i s).1
      | bot s => exact absurd rfl (hn _ hcs i s).2
      | power p => cases p <;> rfl
      | fraction m =>
        cases m with
        | none => rfl
        | some f => simp only [layerCall, setFraction]; split_ifs <;> rfl

/-- C130, indices: the index given back for a layer stays that of this layer whatever is called later: its name never changes, and without calls on it neither do
its thickness, kind, metal fraction and power models. -/
theorem c130_index {o : Obj K} {l : GLay K Nat} {i : Nat} (ha : (o.append l).2 = .index i) (hi : i ≠ invalidIndex) {cs : List (Call K)} {o' : Obj K}
    (h : run (o.append l).1 cs = .ok o') :
    ∃ l', o'.layers[i]? = some l' ∧ l'.name = l.name ∧
      (Apart i cs → l'.thick = l.thick ∧ l'.isMetal = l.isMetal ∧ l'.mf = l.mf ∧ l'.powers = l.powers) := by
  have hstart : ∃ t, (o.append l).1.layers[i]? = some { l with top := t } := by
    rcases append_cases o l with ⟨_, e⟩ | ⟨h1, h2, h3, e⟩ | ⟨h1, h2, init, b, h3, e⟩ <;> rw [e] at ha ⊢ <;>
      simp only [Ans.index.injEq] at ha <;> subst ha
    · exact absurd rfl hi
    · exact ⟨l.top, rfl⟩
    · exact ⟨b.name, by simp⟩
  have key : ∀ (a : Obj K) (c : Call K) (r : Obj K × Ans) (x : GLay K Nat), a.layers[i]? = some x → step a c = .ok r →
      ∃ x', r.1.layers[i]? = some x' ∧ x'.name = x.name ∧
        (Apart i [c] → x'.thick = x.thick ∧ x'.isMetal = x.isMetal ∧ x'.mf = x.mf ∧ x'.powers = x.powers) := by
    intro a c r x hx hr
    obtain ⟨_, hc⟩ := step_layers hr
    rcases hc with ⟨m, _, e⟩ | ⟨_, e⟩ | ⟨j, m, p, rfl, hj, e⟩ | ⟨j, m, d, rfl, hj, e⟩
    · rw [e]
      rcases append_cases a m with ⟨_, e⟩ | ⟨h1, h2, h3, e⟩ | ⟨h1, h2, init, b, h3, e⟩ <;> rw [e]
      · exact ⟨x, hx, rfl, fun _ => ⟨rfl, rfl, rfl, rfl⟩⟩
      · rw [h3] at hx; simp at hx
      · rw [h3] at hx
        have hlt : i < (init ++ [b]).length := (List.getElem?_eq_some_iff.1 hx).1
        simp only [List.length_append, List.length_cons, List.length_nil] at hlt
        by_cases hib : i < init.length
        · rw [List.getElem?_append_left hib] at hx
          exact ⟨x, by simp only; rw [List.getElem?_append_left hib]; exact hx, rfl, fun _ => ⟨rfl, rfl, rfl, rfl⟩⟩
        · have : i = init.length := by omega
          subst this
          simp at hx
          subst hx
          exact ⟨{ b with bot := m.name }, by simp, rfl, fun _ => ⟨rfl, rfl, rfl, rfl⟩⟩
    · exact ⟨x, by rw [e]; exact hx, rfl, fun _ => ⟨rfl, rfl, rfl, rfl⟩⟩
    · by_cases hij : j = i
      · subst hij
        rw [hx] at hj
        injection hj with hj
        subst hj
        refine ⟨(addPower x p).1, ?_, (addPower_fields x p).1, fun hap => absurd rfl ((hap _ List.mem_cons_self).2 p)⟩
        rw [e, List.getElem?_set_self (List.getElem?_eq_some_iff.1 hx).1]
      · exact ⟨x, by rw [e, List.getElem?_set_ne hij]; exact hx, rfl, fun _ => ⟨rfl, rfl, rfl, rfl⟩⟩
    · by_cases hij : j = i
      · subst hij
        rw [hx] at hj
        injection hj with hj
        subst hj
        refine ⟨(layerCall x d).1, ?_, (layerCall_size x d).2, fun hap => absurd rfl ((hap _ List.mem_cons_self).1 d)⟩
        rw [e, List.getElem?_set_self (List.getElem?_eq_some_iff.1 hx).1]
      · exact ⟨x, by rw [e, List.getElem?_set_ne hij]; exact hx, rfl, fun _ => ⟨rfl, rfl, rfl, rfl⟩⟩
  have all : ∀ (cs : List (Call K)) (a : Obj K) (x : GLay K Nat), a.layers[i]? = some x → run a cs = .ok o' →
      ∃ x', o'.layers[i]? = some x' ∧ x'.name = x.name ∧
        (Apart i cs → x'.thick = x.thick ∧ x'.isMetal = x.isMetal ∧ x'.mf = x.mf ∧ x'.powers = x.powers) := by
    intro cs
    induction cs with
    | nil =>
      intro a x hx hr
      simp only [run, Res.ok.injEq] at hr
      subst hr
      exact ⟨x, hx, rfl, fun _ => ⟨rfl, rfl, rfl, rfl⟩⟩
    | cons c cs ih =>
      intro a x hx hr
      rw [run] at hr
      cases hc : step a c with
      | ok r =>
        rw [hc] at hr
        obtain ⟨x1, g1, g2, g3⟩ := key a c r x hx hc
        obtain ⟨x2, k1, k2, k3⟩ := ih r.1 x1 g1 hr
        refine ⟨x2, k1, k2.trans g2, fun hap => ?_⟩
        obtain ⟨a1, a2, a3, a4⟩ := g3 (fun d hd => hap d (by simp only [List.mem_singleton] at hd; simp [hd]))
        obtain ⟨b1, b2, b3, b4⟩ := k3 (fun d hd => hap d (List.mem_cons_of_mem _ hd))
        exact ⟨b1.trans a1, b2.trans a2, b3.trans a3, b4.trans a4⟩
      | ub => rw [hc] at hr; simp at hr
      | exn => rw [hc] at hr; simp at hr
  obtain ⟨t, ht⟩ := hstart
  obtain ⟨x', g1, g2, g3⟩ := all cs _ _ ht h
  exact ⟨x', g1, g2, g3⟩

/-! ## measures -/

variable [IsStrictOrderedRing K]

theorem measures_run {size : Nat × Nat} {ref : K × K} {cs : List (Call K)} {o : Obj K} (h : run (Obj.new size ref) cs = .ok o) :
    o.ref = ref ∧ o.size = size ∧ 0 ≤ o.scaleH ∧ 0 ≤ o.res.1 ∧ 0 ≤ o.res.2 := by
  refine run_inv (P := fun a => a.ref = ref ∧ a.size = size ∧ 0 ≤ a.scaleH ∧ 0 ≤ a.res.1 ∧ 0 ≤ a.res.2)
    ⟨rfl, rfl, zero_le_one, le_refl _, le_refl _⟩ ?_ h
  rintro c _ a r ha hr
  cases c with
  | append l =>
    simp only [step, Res.ok.injEq] at hr
    subst hr
    rcases append_cases a l with ⟨_, e⟩ | ⟨_, _, _, e⟩ | ⟨_, _, _, _, _, e⟩ <;> rw [e] <;> exact ha
  | scale s =>
    simp only [step] at hr
    split_ifs at hr with hs <;> simp only [Res.ok.injEq] at hr <;> subst hr
    · exact ha
    · exact ⟨ha.1, ha.2.1, not_lt.1 hs, ha.2.2.2⟩
  | resolution x y =>
    simp only [step] at hr
    split_ifs at hr with hs <;> simp only [Res.ok.injEq] at hr <;> subst hr
    · exact ha
    · rw [not_or, not_lt, not_lt] at hs
      exact ⟨ha.1, ha.2.1, ha.2.2.1, hs⟩
  | jump a b al => simp only [step, Res.ok.injEq] at hr; subst hr; exact ha
  | power i p =>
    simp only [step] at hr
    cases hl : a.layers[i]? with
    | none => rw [hl] at hr; simp at hr
    | some l => rw [hl] at hr; simp only [Res.ok.injEq] at hr; subst hr; exact ha
  | block t ll ur bc => simp only [step, Res.ok.injEq] at hr; subst hr; cases t <;> exact ha
  | layer i d =>
    simp only [step] at hr
    cases hl : a.layers[i]? with
    | none => rw [hl] at hr; simp at hr
    | some l => rw [hl] at hr; simp only [Res.ok.injEq] at hr; subst hr; exact ha

/-- C130, region: after any calls the region starts at the reference point, its upper corner is nowhere below the lower one, and it is as wide and high as the cells
together. -/
theorem c130_region {size : Nat × Nat} {ref : K × K} {cs : List (Call K)} {o : Obj K} (h : run (Obj.new size ref) cs = .ok o) (scaled : Bool) :
    (o.region scaled).1 = ref ∧ ref.1 ≤ (o.region scaled).2.1 ∧ ref.2 ≤ (o.region scaled).2.2 ∧
    (o.region scaled).2.1 - ref.1 = (o.getRes scaled).1 * size.1 ∧ (o.region scaled).2.2 - ref.2 = (o.getRes scaled).2 * size.2 := by
  obtain ⟨h1, h2, h3, h4, h5⟩ := measures_run h
  unfold Obj.region Obj.getRes
  rw [h1, h2]
  have n1 : (0 : K) ≤ (size.1 : K) := Nat.cast_nonneg _
  have n2 : (0 : K) ≤ (size.2 : K) := Nat.cast_nonneg _
  cases scaled
  · refine ⟨rfl, ?_, ?_, by simp, by simp⟩
    · simpa using mul_nonneg h4 n1
    · simpa using mul_nonneg h5 n2
  · refine ⟨rfl, ?_, ?_, by simp, by simp⟩
    · simpa using mul_nonneg (mul_nonneg h3 h4) n1
    · simpa using mul_nonneg (mul_nonneg h3 h5) n2

/-- C130 is false of the scale: zero is accepted, and then the scaled region is a point whatever the resolution. -/
theorem c130_scale_refuted (o : Obj K) : ∃ o', step o (.scale 0) = .ok (o', .bool true) ∧ o'.region true = (o.ref, o.ref) := by
  refine ⟨{ o with scaleH := 0 }, ?_, ?_⟩
  · simp [step]
  · simp [Obj.region]

omit [IsStrictOrderedRing K] in
theorem totalThick_eq (ls : List (GLay K Nat)) : totalThick ls = (ls.map fun l => l.thick).sum := by
  unfold totalThick
  have : ∀ (ls : List (GLay K Nat)) (a : K), ls.foldl (fun t l => t + l.thick) a = a + (ls.map fun l => l.thick).sum := by
    intro ls
    induction ls with
    | nil => intro a; simp
    | cons l ls ih => intro a; rw [List.foldl_cons, ih, List.map_cons, List.sum_cons]; ring
  rw [this, zero_add]

/-- C130, thickness: after any calls, unless a layer is given a negative thickness by hand, no layer is thicker than the model. -/
theorem c130_thickness_partial {size : Nat × Nat} {ref : K × K} {cs : List (Call K)} {o : Obj K} (h : run (Obj.new size ref) cs = .ok o)
    (hn : NoNegative cs) : ∀ l ∈ o.layers, 0 ≤ l.thick ∧ l.thick ≤ totalThick o.layers := by
  have hpos : ∀ l ∈ o.layers, 0 ≤ l.thick := by
    refine run_inv (P := fun a => ∀ l ∈ a.layers, 0 ≤ l.thick) (by simp [Obj.new]) ?_ h
    intro c hcs a r hl hr
    obtain ⟨_, hc⟩ := step_layers hr
    rcases hc with ⟨l, _, e⟩ | ⟨_, e⟩ | ⟨i, l, p, _, hi, e⟩ | ⟨i, l, d, rfl, hi, e⟩
    · intro x hx
      rw [e] at hx
      rcases mem_append_layers hx with hx | ⟨b, hb, s, rfl⟩ | ⟨h2, _, s, rfl⟩
      · exact hl x hx
      · exact hl b hb
      · exact h2
    · rw [e]; exact hl
    · rw [e]
      intro x hx
      rcases List.mem_or_eq_of_mem_set hx with hx | rfl
      · exact hl x hx
      · rw [(addPower_fields l p).2.1]
        exact hl l (List.mem_of_getElem? hi)
    · rw [e]
      intro x hx
      rcases List.mem_or_eq_of_mem_set hx with hx | rfl
      · exact hl x hx
      · have h0 := hl l (List.mem_of_getElem? hi)
        cases d with
        | thickness t => exact hn _ hcs i t rfl
        | metal b => exact h0
        | top s => exact h0
        | bot s => exact h0
        | power p => cases p <;> exact h0
        | fraction m =>
          cases m with
          | none => exact h0
          | some f => simp only [layerCall, setFraction]; split_ifs <;> exact h0
  intro l hl
  refine ⟨hpos l hl, ?_⟩
  rw [totalThick_eq]
  exact List.single_le_sum (by simpa using hpos) _ (List.mem_map_of_mem hl)

/-- C130 is false of thicknesses given later: what `AppendLayer` refuses is accepted on the layer of the model, and its total thickness can be any negative
number. -/
theorem c130_thickness_refuted (size : Nat × Nat) (ref : K × K) (f : Frac K) (hf : (f.w, f.h) = size) {t : K} (ht : t < 0) :
    ((Obj.new size ref).append { newLayer "" (some f) with thick := t }).2 = .index invalidIndex ∧
    ∃ o, run (Obj.new size ref) [.append (newLayer "" (some f)), .layer 0 (.thickness t)] = .ok o ∧ totalThick o.layers = t := by
  constructor
  · simp [Obj.append, ht]
  · refine ⟨{ Obj.new size ref with layers := [{ newLayer "" (some f) with thick := t }] }, ?_, by simp [totalThick]⟩
    have : (Obj.new size ref).append (newLayer "" (some f)) = ({ Obj.new size ref with layers := [newLayer "" (some f)] }, .index 0) := by
      simp [Obj.append, newLayer, GLay.size, hf, Obj.new, appendLayer]
    simp only [run, step, this, Res.bind_ok]
    rfl

/-! ## tables -/

omit [Field K] [LinearOrder K] [IsStrictOrderedRing K] in
theorem mem_cellsOf (d : GridData K) (v : K) : v ∈ cellsOf d ↔ ∃ x < d.width, ∃ y < d.height, d.val x y = v := by
  simp [cellsOf]

omit [Field K] [IsStrictOrderedRing K] in
theorem fold_lt (vs : List K) : ∀ v : K, (vs.foldl (fun b a => if (fun a b => decide (a < b)) a b = true then a else b) v) ∈ v :: vs ∧
    ∀ u ∈ v :: vs, vs.foldl (fun b a => if (fun a b => decide (a < b)) a b = true then a else b) v ≤ u := by
  induction vs with
  | nil => intro v; simp
  | cons w vs ih =>
    intro v
    rw [List.foldl_cons]
    simp only [decide_eq_true_eq] at ih ⊢
    split_ifs with h
    · obtain ⟨i1, i2⟩ := ih w
      refine ⟨List.mem_cons_of_mem _ i1, fun u hu => ?_⟩
      rcases List.mem_cons.1 hu with rfl | hu
      · exact (i2 w List.mem_cons_self).trans h.le
      · exact i2 u hu
    · obtain ⟨i1, i2⟩ := ih v
      refine ⟨?_, fun u hu => ?_⟩
      · rcases List.mem_cons.1 i1 with e | e
        · rw [e]; exact List.mem_cons_self
        · exact List.mem_cons_of_mem _ (List.mem_cons_of_mem _ e)
      · rcases List.mem_cons.1 hu with rfl | hu
        · exact i2 u List.mem_cons_self
        · rcases List.mem_cons.1 hu with rfl | hu
          · exact (i2 v List.mem_cons_self).trans (not_lt.1 h)
          · exact i2 u (List.mem_cons_of_mem _ hu)

omit [Field K] [IsStrictOrderedRing K] in
theorem fold_gt (vs : List K) : ∀ v : K, (vs.foldl (fun b a => if (fun a b => decide (b < a)) a b = true then a else b) v) ∈ v :: vs ∧
    ∀ u ∈ v :: vs, u ≤ vs.foldl (fun b a => if (fun a b => decide (b < a)) a b = true then a else b) v := by
  induction vs with
  | nil => intro v; simp
  | cons w vs ih =>
    intro v
    rw [List.foldl_cons]
    simp only [decide_eq_true_eq] at ih ⊢
    split_ifs with h
    · obtain ⟨i1, i2⟩ := ih w
      refine ⟨List.mem_cons_of_mem _ i1, fun u hu => ?_⟩
      rcases List.mem_cons.1 hu with rfl | hu
      · exact h.le.trans (i2 w List.mem_cons_self)
      · exact i2 u hu
    · obtain ⟨i1, i2⟩ := ih v
      refine ⟨?_, fun u hu => ?_⟩
      · rcases List.mem_cons.1 i1 with e | e
        · rw [e]; exact List.mem_cons_self
        · exact List.mem_cons_of_mem _ (List.mem_cons_of_mem _ e)
      · rcases List.mem_cons.1 hu with rfl | hu
        · exact i2 u List.mem_cons_self
        · rcases List.mem_cons.1 hu with rfl | hu
          · exact (not_lt.1 h).trans (i2 v List.mem_cons_self)
          · exact i2 u (List.mem_cons_of_mem _ hu)

omit [IsStrictOrderedRing K] in
theorem maxOcc_spec {d : GridData K} (hw : 0 < d.width) (hh : 0 < d.height) :
    (maxOcc (fun a b => a < b) d ∈ cellsOf d ∧ ∀ u ∈ cellsOf d, maxOcc (fun a b => a < b) d ≤ u) ∧
    (maxOcc (fun a b => b < a) d ∈ cellsOf d ∧ ∀ u ∈ cellsOf d, u ≤ maxOcc (fun a b => b < a) d) := by
  unfold maxOcc
  cases hc : cellsOf d with
  | nil =>
    have : d.val 0 0 ∈ cellsOf d := (mem_cellsOf d _).2 ⟨0, hw, 0, hh, rfl⟩
    rw [hc] at this
    simp at this
  | cons v vs => exact ⟨fold_lt vs v, fold_gt vs v⟩

omit [IsStrictOrderedRing K] in
theorem range_fold (l : List (K × GridData K)) : ∀ (r : K × K),
    let r' := l.foldl (fun (r : K × K) s => (min r.1 (maxOcc (fun a b => a < b) s.2), max r.2 (maxOcc (fun a b => b < a) s.2))) r
    (r'.1 ≤ r.1 ∧ r.2 ≤ r'.2) ∧ (∀ s ∈ l, r'.1 ≤ maxOcc (fun a b => a < b) s.2 ∧ maxOcc (fun a b => b < a) s.2 ≤ r'.2) ∧
    (r'.1 = r.1 ∨ ∃ s ∈ l, r'.1 = maxOcc (fun a b => a < b) s.2) ∧ (r'.2 = r.2 ∨ ∃ s ∈ l, r'.2 = maxOcc (fun a b => b < a) s.2) := by
  induction l with
  | nil => intro r; simp
  | cons s l ih =>
    intro r
    simp only [List.foldl_cons]
    obtain ⟨⟨i1, i2⟩, i3, i4, i5⟩ := ih (min r.1 (maxOcc (fun a b => a < b) s.2), max r.2 (maxOcc (fun a b => b < a) s.2))
    simp only at i1 i2 i3 i4 i5
    refine ⟨⟨i1.trans (min_le_left _ _), (le_max_left _ _).trans i2⟩, ?_, ?_, ?_⟩
    · intro p hp
      rcases List.mem_cons.1 hp with rfl | hp
      · exact ⟨i1.trans (min_le_right _ _), (le_max_right _ _).trans i2⟩
      · exact i3 p hp
    · rcases i4 with e | ⟨p, hp, e⟩
      · rcases min_choice r.1 (maxOcc (fun a b => a < b) s.2) with h | h
        · exact .inl (e.trans h)
        · exact .inr ⟨s, List.mem_cons_self, e.trans h⟩
      · exact .inr ⟨p, List.mem_cons_of_mem _ hp, e⟩
    · rcases i5 with e | ⟨p, hp, e⟩
      · rcases max_choice r.2 (maxOcc (fun a b => b < a) s.2) with h | h
        · exact .inl (e.trans h)
        · exact .inr ⟨s, List.mem_cons_self, e.trans h⟩
      · exact .inr ⟨p, List.mem_cons_of_mem _ hp, e⟩

/-- the samples a filled table keeps -/
theorem kept {size : Size2} {l : List (K × GridData K)} {k : K} {d : GridData K} (h : sampleAt size l k = some d) :
    d.width = size.x ∧ d.height = size.y := by
  unfold sampleAt at h
  rw [Option.map_eq_some_iff] at h
  obtain ⟨s, hs, rfl⟩ := h
  have := List.find?_some hs
  simp only [decide_eq_true_eq] at this
  exact this.2

/-- C130, range: the range of a table that keeps a sample is that of all values it keeps: it holds all of them and both ends are among them. -/
theorem c130_range {big : K} {size : Size2} (hx : 0 < size.x) (hy : 0 < size.y) (l : List (K × GridData K))
    (hbig : ∀ k d, sampleAt size l k = some d → ∀ x < size.x, ∀ y < size.y, |d.val x y| ≤ big) (hne : ∃ k d, sampleAt size l k = some d) :
    (∀ k d, sampleAt size l k = some d → ∀ x < size.x, ∀ y < size.y,
      (getRange big (filled size l)).1 ≤ d.val x y ∧ d.val x y ≤ (getRange big (filled size l)).2) ∧
    (∃ k d, sampleAt size l k = some d ∧ ∃ x < size.x, ∃ y < size.y, d.val x y = (getRange big (filled size l)).1) ∧
    ∃ k d, sampleAt size l k = some d ∧ ∃ x < size.x, ∃ y < size.y, d.val x y = (getRange big (filled size l)).2 := by
  obtain ⟨_, _, i3⟩ := filled_inv size l
  obtain ⟨_, r2, r3, r4⟩ := range_fold (filled size l).samples (big, -big)
  have hin : ∀ k d, sampleAt size l k = some d → ∀ x < size.x, ∀ y < size.y,
      (getRange big (filled size l)).1 ≤ d.val x y ∧ d.val x y ≤ (getRange big (filled size l)).2 := by
    intro k d hs x hx' y hy'
    obtain ⟨w1, w2⟩ := kept hs
    obtain ⟨⟨_, m2⟩, _, m4⟩ := maxOcc_spec (d := d) (by omega) (by omega)
    have hm : d.val x y ∈ cellsOf d := (mem_cellsOf d _).2 ⟨x, by omega, y, by omega, rfl⟩
    obtain ⟨a1, a2⟩ := r2 (k, d) ((i3 k d).2 hs)
    exact ⟨a1.trans (m2 _ hm), (m4 _ hm).trans a2⟩
  have hcell : ∀ (s : K × GridData K), s ∈ (filled size l).samples → ∀ v ∈ cellsOf s.2,
      ∃ k d, sampleAt size l k = some d ∧ ∃ x < size.x, ∃ y < size.y, d.val x y = v := by
    intro s hs v hv
    have hk := (i3 s.1 s.2).1 hs
    obtain ⟨w1, w2⟩ := kept hk
    obtain ⟨x, hx', y, hy', e⟩ := (mem_cellsOf _ _).1 hv
    exact ⟨s.1, s.2, hk, x, by omega, y, by omega, e⟩
  have hmax : ∀ s ∈ (filled size l).samples, 0 < s.2.width ∧ 0 < s.2.height := by
    intro s hs
    obtain ⟨w1, w2⟩ := kept ((i3 s.1 s.2).1 hs)
    omega
  obtain ⟨k0, d0, h0⟩ := hne
  have b0 := hbig k0 d0 h0 0 hx 0 hy
  have e0 := hin k0 d0 h0 0 hx 0 hy
  refine ⟨hin, ?_, ?_⟩
  · rcases r3 with e | ⟨s, hs, e⟩
    · have : (getRange big (filled size l)).1 = big := e
      rw [this] at e0 ⊢
      exact ⟨k0, d0, h0, 0, hx, 0, hy, le_antisymm ((le_abs_self _).trans b0) e0.1⟩
    · have e' : (getRange big (filled size l)).1 = _ := e
      rw [e']
      exact hcell s hs _ (maxOcc_spec (hmax s hs).1 (hmax s hs).2).1.1
  · rcases r4 with e | ⟨s, hs, e⟩
    · have : (getRange big (filled size l)).2 = -big := e
      rw [this] at e0 ⊢
      refine ⟨k0, d0, h0, 0, hx, 0, hy, le_antisymm e0.2 ?_⟩
      have := neg_abs_le (d0.val 0 0)
      linarith
    · have e' : (getRange big (filled size l)).2 = _ := e
      rw [e']
      exact hcell s hs _ (maxOcc_spec (hmax s hs).1 (hmax s hs).2).2.1

/-- C130, range and queries: every value a filled table answers, at any temperature, is within its range. -/
theorem c130_range_query {ip : List (K × K) → K → Res K} (hip : Pchip ip) {big : K} {size : Size2} (l : List (K × GridData K))
    (hbig : ∀ k d, sampleAt size l k = some d → ∀ x < size.x, ∀ y < size.y, |d.val x y| ≤ big) {key v : K} {x y : Nat}
    (hq : query ip (filled size l) key x y = .ok (some v)) :
    (getRange big (filled size l)).1 ≤ v ∧ v ≤ (getRange big (filled size l)).2 := by
  obtain ⟨i1, i2, i3⟩ := filled_inv size l
  have hxy : x < size.x ∧ y < size.y := by
    by_contra hcon
    have : query ip (filled size l) key x y = .ok none := by
      unfold query
      rw [i1, if_pos (by omega)]
    rw [this] at hq
    simp at hq
  obtain ⟨hx, hy⟩ := hxy
  have hval : (∃ k d, sampleAt size l k = some d ∧ d.val x y ≤ v) ∧ ∃ k d, sampleAt size l k = some d ∧ v ≤ d.val x y := by
    by_cases hlen : (filled size l).samples.length = 0 ∨ (filled size l).samples.length = 2 ∨ (filled size l).samples.length = 3
    · unfold query at hq
      rw [i1, if_neg (by omega)] at hq
      generalize hS : (filled size l).samples = S at *
      match S, hS with
      | [], _ => simp at hq
      | [s], _ => simp at hlen
      | s :: s' :: rest, _ =>
        simp only at hq
        split_ifs at hq with hk1 hk2
        · simp only [Res.ok.injEq, Option.some.injEq] at hq
          have hm := (i3 s.1 s.2).1 (by simp)
          exact ⟨⟨s.1, s.2, hm, hq.le⟩, ⟨s.1, s.2, hm, hq.ge⟩⟩
        · simp only [Res.ok.injEq, Option.some.injEq] at hq
          have hlast : (s' :: rest).getLast (by simp) ∈ s :: s' :: rest := List.mem_cons_of_mem _ (List.getLast_mem _)
          have hm := (i3 _ _).1 hlast
          exact ⟨⟨_, _, hm, hq.le⟩, ⟨_, _, hm, hq.ge⟩⟩
        · rw [hip.few] at hq
          · simp at hq
          · simp only [List.length_map, List.length_cons] at hlen ⊢
            omega
    · push Not at hlen
      obtain ⟨v', h1, h2, h3, _⟩ := (c55_table_partial hip size l key x y).2.2 hx hy hlen.1 hlen.2.1 hlen.2.2
      rw [h1] at hq
      simp only [Res.ok.injEq, Option.some.injEq] at hq
      subst hq
      exact ⟨h2, h3⟩
  obtain ⟨⟨k1, d1, s1, v1⟩, k2, d2, s2, v2⟩ := hval
  have r := (c130_range (by omega) (by omega) l hbig ⟨k1, d1, s1⟩).1
  exact ⟨(r k1 d1 s1 x hx y hy).1.trans v1, v2.trans (r k2 d2 s2 x hx y hy).2⟩

omit [IsStrictOrderedRing K] in
/-- C130 is false of a table without samples: its range is turned around. -/
theorem c130_range_refuted (big : K) (size : Size2) : getRange big ⟨size, []⟩ = (big, -big) := rfl

theorem cells_eq {d e : GridData K} (hw : d.width = e.width) (hh : d.height = e.height) :
    cellsOf d = cellsOf e ↔ ∀ x < d.width, ∀ y < d.height, d.val x y = e.val x y := by
  unfold cellsOf
  rw [← hw, ← hh]
  constructor
  · intro h x hx y hy
    have hrow : ∀ n, n ≤ d.width → (List.range n).flatMap (fun x => (List.range d.height).map fun y => d.val x y) =
        (List.range n).flatMap (fun x => (List.range d.height).map fun y => e.val x y) := by
      intro n hn
      induction hk : d.width - n generalizing n with
      | zero => have : n = d.width := by omega
                rw [this]; exact h
      | succ k ih =>
        have := ih (n + 1) (by omega) (by omega)
        rw [List.range_succ, List.flatMap_append, List.flatMap_append] at this
        exact (List.append_inj' this (by simp)).1
    have h1 := hrow (x + 1) hx
    rw [List.range_succ, List.flatMap_append, List.flatMap_append] at h1
    have h2 := (List.append_inj' h1 (by simp)).2
    simp only [List.flatMap_cons, List.flatMap_nil, List.append_nil] at h2
    have h3 := congrArg (fun l => l[y]?) h2
    simpa [hy] using h3
  · intro h
    apply List.flatMap_congr
    intro x hx
    rw [List.mem_range] at hx
    apply List.map_congr_left
    intro y hy
    rw [List.mem_range] at hy
    exact h x hx y hy

/-- C130, interpolation: a filled table says that interpolation is needed exactly if it keeps two samples that differ in a cell. -/
theorem c130_interpolation (size : Size2) (l : List (K × GridData K)) :
    needInterpolation (filled size l) = true ↔
      ∃ k d k' d', sampleAt size l k = some d ∧ sampleAt size l k' = some d' ∧ ∃ x < size.x, ∃ y < size.y, d.val x y ≠ d'.val x y := by
  obtain ⟨_, _, i3⟩ := filled_inv size l
  have hne : ∀ d d' : GridData K, d.width = size.x → d.height = size.y → d'.width = size.x → d'.height = size.y →
      (gridNe d d' = true ↔ ∃ x < size.x, ∃ y < size.y, d.val x y ≠ d'.val x y) := by
    intro d d' w1 w2 w3 w4
    unfold gridNe
    rw [w1, w3, w2, w4]
    simp only [ne_eq, not_true_eq_false, decide_false, Bool.false_or, decide_eq_true_eq]
    rw [cells_eq (by omega) (by omega), w1, w2]
    push Not
    rfl
  unfold needInterpolation
  cases hS : (filled size l).samples with
  | nil =>
    simp only [Bool.false_eq_true, false_iff]
    rintro ⟨k, d, _, _, h, _⟩
    have := (i3 k d).2 h
    rw [hS] at this
    simp at this
  | cons s rest =>
    simp only [List.any_eq_true]
    have hs := (i3 s.1 s.2).1 (by rw [hS]; simp)
    obtain ⟨a1, a2⟩ := kept hs
    constructor
    · rintro ⟨q, hq, hn⟩
      have hq' := (i3 q.1 q.2).1 (by rw [hS]; simp [hq])
      obtain ⟨b1, b2⟩ := kept hq'
      exact ⟨s.1, s.2, q.1, q.2, hs, hq', (hne _ _ a1 a2 b1 b2).1 hn⟩
    · rintro ⟨k, d, k', d', h1, h2, x, hx, y, hy, hd⟩
      have m1 := (i3 k d).2 h1
      have m2 := (i3 k' d').2 h2
      obtain ⟨b1, b2⟩ := kept h1
      obtain ⟨c1, c2⟩ := kept h2
      rw [hS] at m1 m2
      by_cases e1 : s.2.val x y = d.val x y
      · have e2 : s.2.val x y ≠ d'.val x y := by rw [e1]; exact hd
        rcases List.mem_cons.1 m2 with h | h
        · rw [← h] at e2; exact absurd rfl e2
        · exact ⟨(k', d'), h, (hne _ _ a1 a2 c1 c2).2 ⟨x, hx, y, hy, e2⟩⟩
      · rcases List.mem_cons.1 m1 with h | h
        · rw [← h] at e1; exact absurd rfl e1
        · exact ⟨(k, d), h, (hne _ _ a1 a2 b1 b2).2 ⟨x, hx, y, hy, e1⟩⟩

/-- C130, interpolation and queries: if no interpolation is needed, all temperatures give the same value at a cell, as far as a query answers. -/
theorem c130_constant {ip : List (K × K) → K → Res K} (hip : Pchip ip) {size : Size2} (l : List (K × GridData K))
    (hn : needInterpolation (filled size l) = false) {key key' v v' : K} {x y : Nat} (hq : query ip (filled size l) key x y = .ok (some v))
    (hq' : query ip (filled size l) key' x y = .ok (some v')) : v = v' := by
  obtain ⟨i1, i2, i3⟩ := filled_inv size l
  have hxy : x < size.x ∧ y < size.y := by
    by_contra hcon
    have : query ip (filled size l) key x y = .ok none := by
      unfold query
      rw [i1, if_pos (by omega)]
    rw [this] at hq
    simp at hq
  have hall : ∀ k d k' d', sampleAt size l k = some d → sampleAt size l k' = some d' → d.val x y = d'.val x y := by
    intro k d k' d' h1 h2
    by_contra hd
    have := (c130_interpolation size l).2 ⟨k, d, k', d', h1, h2, x, hxy.1, y, hxy.2, hd⟩
    rw [hn] at this
    simp at this
  have hone : ∀ key v, query ip (filled size l) key x y = .ok (some v) →
      (∃ k d, sampleAt size l k = some d ∧ d.val x y ≤ v) ∧ ∃ k d, sampleAt size l k = some d ∧ v ≤ d.val x y := by
    intro key v hq
    -- the table with one cell at (x, y) has the same answers
    unfold query at hq
    rw [i1, if_neg (by omega)] at hq
    generalize hS : (filled size l).samples = S at *
    match S, hS with
    | [], _ => simp at hq
    | [s], _ =>
      simp only [Res.ok.injEq, Option.some.injEq] at hq
      have hm := (i3 s.1 s.2).1 (by simp)
      exact ⟨⟨s.1, s.2, hm, hq.le⟩, ⟨s.1, s.2, hm, hq.ge⟩⟩
    | s :: s' :: rest, _ =>
      have hlast : (s' :: rest).getLast (by simp) ∈ s :: s' :: rest := List.mem_cons_of_mem _ (List.getLast_mem _)
      simp only at hq
      split_ifs at hq with hk1 hk2
      · simp only [Res.ok.injEq, Option.some.injEq] at hq
        have hm := (i3 s.1 s.2).1 (by simp)
        exact ⟨⟨s.1, s.2, hm, hq.le⟩, ⟨s.1, s.2, hm, hq.ge⟩⟩
      · simp only [Res.ok.injEq, Option.some.injEq] at hq
        have hm := (i3 _ _).1 hlast
        exact ⟨⟨_, _, hm, hq.le⟩, ⟨_, _, hm, hq.ge⟩⟩
      · by_cases h4 : ((s :: s' :: rest).map fun p => (p.1, p.2.val x y)).length < 4
        · rw [hip.few _ _ h4] at hq
          simp at hq
        · have hsort : ((s :: s' :: rest).map fun p => (p.1, p.2.val x y)).Pairwise (fun a b => a.1 < b.1) := by
            rw [List.pairwise_map]; exact i2
          obtain ⟨u, hu, ⟨p, hp, hpv⟩, ⟨q, hq', hqv⟩⟩ := hip.between _ key (not_lt.1 h4) hsort
            ⟨_, List.mem_map_of_mem (List.mem_cons_self), (not_le.1 hk1).le⟩
            ⟨_, List.mem_map_of_mem hlast, (not_le.1 hk2).le⟩
          rw [hu] at hq
          simp only [Res.bind_ok, Res.ok.injEq, Option.some.injEq] at hq
          subst hq
          rw [List.mem_map] at hp hq'
          obtain ⟨⟨kp, dp⟩, hp, rfl⟩ := hp
          obtain ⟨⟨kq, dq⟩, hq', rfl⟩ := hq'
          exact ⟨⟨kp, dp, (i3 _ _).1 hp, hpv⟩, ⟨kq, dq, (i3 _ _).1 hq', hqv⟩⟩
  obtain ⟨⟨k1, d1, a1, a2⟩, k2, d2, a3, a4⟩ := hone key v hq
  obtain ⟨⟨k3, d3, b1, b2⟩, k4, d4, b3, b4⟩ := hone key' v' hq'
  apply le_antisymm
  · calc v ≤ d2.val x y := a4
      _ = d3.val x y := hall _ _ _ _ a3 b1
      _ ≤ v' := b2
  · calc v' ≤ d4.val x y := b4
      _ = d1.val x y := hall _ _ _ _ b3 a1
      _ ≤ v := a2

/-- C130, keys: the keys of a filled table are those of the samples it keeps, in increasing order, and the table of a key is the sample kept for it. -/
theorem c130_keys (size : Size2) (l : List (K × GridData K)) :
    (allKeys (filled size l)).Pairwise (· < ·) ∧ (∀ k, k ∈ allKeys (filled size l) ↔ ∃ d, sampleAt size l k = some d) ∧
    ∀ k, getTable (filled size l) k = sampleAt size l k := by
  obtain ⟨_, i2, i3⟩ := filled_inv size l
  refine ⟨?_, fun k => ?_, fun k => ?_⟩
  · unfold allKeys
    rw [List.pairwise_map]
    exact i2
  · simp only [allKeys, List.mem_map, Prod.exists, exists_and_right, exists_eq_right]
    exact exists_congr fun d => i3 k d
  · unfold getTable
    cases hs : sampleAt size l k with
    | none =>
      rw [Option.map_eq_none_iff, List.find?_eq_none]
      rintro ⟨k', d⟩ hm
      simp only [decide_eq_true_eq]
      rintro rfl
      have := (i3 _ d).1 hm
      rw [hs] at this
      simp at this
    | some d =>
      have hm := (i3 k d).2 hs
      cases hf : (filled size l).samples.find? fun s => s.1 = k with
      | none =>
        rw [List.find?_eq_none] at hf
        have := hf _ hm
        simp at this
      | some s =>
        have h1 := List.mem_of_find?_eq_some hf
        have h2 := List.find?_some hf
        simp only [decide_eq_true_eq] at h2
        subst h2
        simp only [Option.map_some, Option.some.injEq]
        exact sorted_unique i2 h1 hm

/-! ## examples -/

def exFrac : Frac ℚ := ⟨2, 1, fun x _ => x⟩
def exCalls : List (Call ℚ) :=
  [.resolution 3 4, .append { newLayer "M1" (some exFrac) with thick := 2 }, .append (newLayer "bad" none), .scale 2, .power 0 (some 7),
   .append { newLayer "M2" (some exFrac) with thick := 1 }, .layer 1 (.fraction (some exFrac)), .layer 0 (.metal true)]

/-- the hypotheses: two layers and one that is refused -/
example : ∃ o, run (Obj.new (2, 1) (5, 6)) exCalls = .ok o ∧ NoNames exCalls ∧ NoNegative exCalls ∧ o.layers.map names = [("M1", "", "M2"), ("M2", "M1", "")] ∧
    o.region true = ((5, 6), (17, 14)) ∧ totalThick o.layers = 3 := by
  refine ⟨_, rfl, ?_, ?_, rfl, ?_, ?_⟩
  · intro c hc i s
    simp only [exCalls, List.mem_cons, List.not_mem_nil, or_false] at hc
    rcases hc with rfl | rfl | rfl | rfl | rfl | rfl | rfl | rfl <;> simp
  · intro c hc i t he
    simp only [exCalls, List.mem_cons, List.not_mem_nil, or_false] at hc
    rcases hc with rfl | rfl | rfl | rfl | rfl | rfl | rfl | rfl <;> simp at he
  · decide +kernel
  · decide +kernel

/-- a layer appended and then left alone -/
example : ((Obj.new (2, 1) ((5 : ℚ), 6)).append { newLayer "M1" (some exFrac) with thick := 2 }).2 = .index 0 := by decide +kernel

def exSamples : List (ℚ × GridData ℚ) := [(25, ⟨2, 1, fun x _ => x⟩), (125, ⟨2, 1, fun x _ => 4 - x⟩), (25, ⟨2, 1, fun _ _ => 9⟩), (75, ⟨1, 1, fun _ _ => 8⟩)]

/-- two of four samples are kept -/
example : getRange 1000 (filled ⟨2, 1⟩ exSamples) = (0, 4) ∧ needInterpolation (filled ⟨2, 1⟩ exSamples) = true ∧
    allKeys (filled ⟨2, 1⟩ exSamples) = [25, 125] := by decide +kernel

end Ecad.GridObj
