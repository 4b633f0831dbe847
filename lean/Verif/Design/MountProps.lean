import Verif.Design.MountModel
import Verif.Basic.SmallProps
import Mathlib.Algebra.Group.Action.End
/-!
Where pins, outlines and ends of bond wires are after any history of calls.

The specification reads histories from the newest call (the head of the list) to the oldest.
-/
namespace Ecad.Mount
open Trans

variable {F M P : Type} [Zero F] [One F] [DecidableEq F] [Kit F M] [MulAction M P]

/-! ### specification -/

/-- the number of definitions made -/
def nDefs : List (Op F M P) → Nat
  | .newDef _ :: h => nDefs h + 1
  | _ :: h => nDefs h
  | [] => 0

/-- the number of components made -/
def nComps : List (Op F M P) → Nat
  | .newComp .. :: h => nComps h + 1
  | _ :: h => nComps h
  | [] => 0

/-- the number of wires made -/
def nWires : List (Op F M P) → Nat
  | .newWire _ :: h => nWires h + 1
  | _ :: h => nWires h
  | [] => 0

/-- the location given for the first pin of that name -/
def pinAt (d : Nat) (name : String) : List (Op F M P) → Option P
  | .createPin d' n p :: h =>
    match pinAt d name h with
    | some q => some q
    | none => if d' = d ∧ n = name then some p else none
  | .newDef _ :: h => if nDefs h = d then none else pinAt d name h
  | _ :: h => pinAt d name h
  | [] => none

/-- the outline of a definition -/
def outline (d : Nat) : List (Op F M P) → Option (List P)
  | .newDef b :: h => if nDefs h = d then b else outline d h
  | _ :: h => outline d h
  | [] => none

/-- the definition of a component -/
def defOf (i : Nat) : List (Op F M P) → Nat
  | .newComp d _ _ :: h => if nComps h = i then d else defOf i h
  | _ :: h => defOf i h
  | [] => 0

/-- whether a component is flipped -/
def flipped (i : Nat) : List (Op F M P) → Bool
  | .newComp _ _ f :: h => if nComps h = i then f else flipped i h
  | .setFlipped j f :: h => if j = i then f else flipped i h
  | _ :: h => flipped i h
  | [] => false

/-- the motion of a component: what it was set to, followed by what was added later -/
def motion (i : Nat) : List (Op F M P) → M
  | .newComp _ t _ :: h => if nComps h = i then t.get.2 else motion i h
  | .setTransform j t :: h => if j = i then t.get.2 else motion i h
  | .addTransform j t :: h => if j = i then t.get.2 * motion i h else motion i h
  | _ :: h => motion i h
  | [] => 1

/-- whether the transform of a component has been read since it was set -/
def wasRead (i : Nat) : List (Op F M P) → Bool
  | .newComp _ t _ :: h => if nComps h = i then t.cache.isSome else wasRead i h
  | .setTransform j t :: h => if j = i then t.cache.isSome else wasRead i h
  | .readTransform j :: h => if j = i then true else wasRead i h
  | _ :: h => wasRead i h
  | [] => false

/-- what a point of the definition is moved by -/
def poseOf (i : Nat) (h : List (Op F M P)) : M :=
  motion i h * (if flipped i h then Kit.mirrorT F 2 else 1)

/-- the component and pin an end is mounted at -/
def mounted (k : Nat) (b : Bool) : List (Op F M P) → Option (Nat × String)
  | .newWire _ :: h => if nWires h = k then none else mounted k b h
  | .setLayer j c _ :: h => if j = k ∧ c = b then none else mounted k b h
  | .setLayerAt j c _ _ _ :: h => if j = k ∧ c = b then none else mounted k b h
  | .setComponent j c i pin :: h => if j = k ∧ c = b then i.map (·, pin) else mounted k b h
  | _ :: h => mounted k b h
  | [] => none

/-- the point an end was put at; `o` is where ends are before -/
def free (o : P) (k : Nat) (b : Bool) : List (Op F M P) → P
  | .newWire p :: h => if nWires h = k then p else free o k b h
  | .setLayerAt j c _ p _ :: h => if j = k ∧ c = b then p else free o k b h
  | .transformWire j t :: h => if j = k then t.get.2 • free o k b h else free o k b h
  | _ :: h => free o k b h
  | [] => o

/-- the layer of an end and whether it is said to be below the layer -/
def onLayer (k : Nat) (b : Bool) : List (Op F M P) → Int × Bool
  | .newWire _ :: h => if nWires h = k then (noLayer, false) else onLayer k b h
  | .setLayer j c l :: h => if j = k ∧ c = b then (l, (onLayer k b h).2) else onLayer k b h
  | .setLayerAt j c l _ f :: h => if j = k ∧ c = b then (l, f) else onLayer k b h
  | .setComponent j c _ _ :: h =>
    if j = k ∧ c = b then (componentLayer, (onLayer k b h).2) else onLayer k b h
  | _ :: h => onLayer k b h
  | [] => (noLayer, false)

/-- where a pin is -/
def pinPoint (i : Nat) (name : String) (h : List (Op F M P)) : Option P :=
  (pinAt (defOf i h) name h).map fun p => poseOf i h • p

/-- where an end is: at its pin if there is one, else where it was put -/
def endPoint (o : P) (k : Nat) (b : Bool) (h : List (Op F M P)) : P :=
  match mounted k b h with
  | none => free o k b h
  | some (i, pin) => if pin = "" then free o k b h else (pinPoint i pin h).getD (free o k b h)

/-- A transform that reports the product of its steps. -/
def Sound (t : T F M) : Prop := t.get.2 = product M t.seq

/-- Histories that only refer to objects made before, pass sound transforms and never add a transform
to a component whose transform has been read since it was set. -/
def Legal : List (Op F M P) → Prop
  | [] => True
  | op :: h => Legal h ∧
    match op with
    | .newComp d t _ => d < nDefs h ∧ Sound t
    | .setTransform _ t => Sound t
    | .addTransform i t => Sound t ∧ wasRead i h = false
    | .setComponent _ _ (some i) _ => i < nComps h
    | .transformWire _ t => Sound t
    | _ => True

/-! ### proofs -/

theorem run_append (w : World F M P) (a b : List (Op F M P)) : run w (a ++ b) = run (run w a) b := by
  induction a generalizing w with
  | nil => rfl
  | cons op a ih => exact ih _

theorem run_reverse_cons (w : World F M P) (op : Op F M P) (h : List (Op F M P)) :
    run w (op :: h).reverse = step (run w h.reverse) op := by
  rw [List.reverse_cons, run_append]; rfl

omit [Zero F] [One F] [DecidableEq F] [Kit F M] [MulAction M P] in
theorem findPin_append (name : String) (l : List (Pin P)) (p : Pin P) :
    findPin name (l ++ [p]) =
      match findPin name l with
      | some q => some q
      | none => if name = p.name then some p else none := by
  induction l with
  | nil => rfl
  | cons q l ih =>
    simp only [List.cons_append, findPin]
    split
    · rfl
    · exact ih

/-- The pose of a component: mirror first, then the steps of its transform. -/
theorem pose_ok (c : Comp F M) : ∃ t : T F M, c.pose = .ok t ∧
    t.get.2 = product M c.trans.seq * (if c.flipped then Kit.mirrorT F 2 else 1) := by
  unfold Comp.pose
  cases c.flipped
  · refine ⟨_, rfl, ?_⟩
    simp only [T.new, T.append, T.get, product_append, product_filter, Bool.false_eq_true, if_false]
    congr 1
    simp [product, Data.isTransformed, Data.default]
  · refine ⟨_, rfl, ?_⟩
    simp only [T.append, T.get, product_append, product_filter, if_true]
    congr 1
    simp [product, Data.isTransformed, Data.default, Data.matrix]

structure EndInv (h : List (Op F M P)) (o : P) (k : Nat) (b : Bool) (e : End P) : Prop where
  mount : mounted k b h = e.comp.map (·, e.pin)
  loc : e.loc = free o k b h
  side : (e.layer, e.flipped) = onLayer k b h
  handle : ∀ i, e.comp = some i → i < nComps h

structure Inv (h : List (Op F M P)) (o : P) (w : World F M P) : Prop where
  ndefs : w.defs.length = nDefs h
  ncomps : w.comps.length = nComps h
  nwires : w.wires.length = nWires h
  defs : ∀ d x, w.defs[d]? = some x →
    (∀ name, (findPin name x.pins).map Pin.loc = pinAt d name h) ∧ x.boundary = outline d h
  comps : ∀ i c, w.comps[i]? = some c → c.cdef = defOf i h ∧ c.cdef < nDefs h ∧
    c.flipped = flipped i h ∧ product M c.trans.seq = motion i h ∧
    c.trans.cache.isSome = wasRead i h
  wires : ∀ k x, w.wires[k]? = some x → EndInv h o k true x.fst ∧ EndInv h o k false x.snd

theorem inv_empty (o : P) : Inv ([] : List (Op F M P)) o ⟨[], [], []⟩ := by
  constructor <;> simp [nDefs, nComps, nWires]

omit [Zero F] [One F] [DecidableEq F] [Kit F M] [MulAction M P] in
theorem snoc_get {A : Type} {l : List A} {a x : A} {i : Nat} (h : (l ++ [a])[i]? = some x) :
    (i < l.length ∧ l[i]? = some x) ∨ (i = l.length ∧ x = a) := by
  rw [List.getElem?_append] at h
  split at h
  · exact Or.inl ⟨‹_›, h⟩
  · right
    have : i - l.length = 0 := by
      by_contra hc
      rw [List.getElem?_eq_none (by simp; omega)] at h
      simp at h
    rw [this] at h
    simp at h
    exact ⟨by omega, h.symm⟩

omit [Zero F] [One F] [DecidableEq F] [Kit F M] [MulAction M P] in
theorem modify_get {A : Type} {l : List A} {x : A} {i j : Nat} {f : A → A}
    (h : (l.modify j f)[i]? = some x) :
    ∃ y, l[i]? = some y ∧ x = if j = i then f y else y := by
  rw [List.getElem?_modify] at h
  simp only [Option.map_eq_map, Option.map_eq_some_iff] at h
  obtain ⟨y, h1, h2⟩ := h
  exact ⟨y, h1, h2.symm⟩

omit [Zero F] [One F] [DecidableEq F] [Kit F M] [MulAction M P] in
theorem lt_of_get {A : Type} {l : List A} {x : A} {i : Nat} (h : l[i]? = some x) : i < l.length :=
  (List.getElem?_eq_some_iff.1 h).1

/-- Every legal call keeps the invariant. -/
theorem inv_step (o : P) (h : List (Op F M P)) (op : Op F M P) (w : World F M P)
    (hl : Legal (op :: h)) (hi : Inv h o w) : Inv (op :: h) o (step w op) := by
  obtain ⟨hh, ho⟩ := hl
  obtain ⟨i1, i2, i3, i4, i5, i6⟩ := hi
  cases op with
  | newDef b =>
    refine ⟨?_, i2, i3, ?_, ?_, ?_⟩
    · simp [step, nDefs, i1]
    · intro d x hx
      rcases snoc_get hx with ⟨h1, h2⟩ | ⟨h1, h2⟩
      · simp only [pinAt, outline, if_neg (show ¬ nDefs h = d by omega)]
        exact i4 d x h2
      · subst h2
        simp [pinAt, outline, ← i1, h1, findPin]
    · intro i c hc
      obtain ⟨a, b, c⟩ := i5 i c hc
      exact ⟨a, by simp only [nDefs]; omega, c⟩
    · intro k x hx
      obtain ⟨a, b⟩ := i6 k x hx
      exact ⟨⟨a.mount, a.loc, a.side, a.handle⟩, ⟨b.mount, b.loc, b.side, b.handle⟩⟩
  | createPin d' n p =>
    refine ⟨by simp [step, nDefs, i1], i2, i3, ?_, i5, ?_⟩
    · intro d x hx
      obtain ⟨y, h1, h2⟩ := modify_get hx
      obtain ⟨j1, j2⟩ := i4 d y h1
      subst h2
      refine ⟨fun name => ?_, ?_⟩
      · simp only [pinAt, ← j1 name]
        by_cases hd : d' = d
        · simp only [hd, if_true, CompDef.createPin, findPin_append, true_and]
          cases findPin name y.pins with
          | some q => rfl
          | none =>
            simp only [Option.map_none]
            by_cases hn : n = name
            · simp [hn]
            · have hn' : ¬ name = n := fun e => hn e.symm
              simp [hn, hn']
        · simp only [hd, if_false, false_and]
          cases findPin name y.pins <;> rfl
      · simp only [outline, ← j2]
        split <;> rfl
    · intro k x hx
      obtain ⟨a, b⟩ := i6 k x hx
      exact ⟨⟨a.mount, a.loc, a.side, a.handle⟩, ⟨b.mount, b.loc, b.side, b.handle⟩⟩
  | newComp d t f =>
    refine ⟨i1, by simp [step, nComps, i2], i3, i4, ?_, ?_⟩
    · intro i c hc
      rcases snoc_get hc with ⟨h1, h2⟩ | ⟨h1, h2⟩
      · simp only [defOf, flipped, motion, wasRead, if_neg (show ¬ nComps h = i by omega)]
        exact i5 i c h2
      · subst h2
        simp only [defOf, flipped, motion, wasRead, if_pos (show nComps h = i by omega), T.copy,
          nDefs, true_and, and_true]
        exact ⟨ho.1, ho.2.symm⟩
    · intro k x hx
      obtain ⟨a, b⟩ := i6 k x hx
      exact ⟨⟨a.mount, a.loc, a.side, fun i hc => by have := a.handle i hc; simp only [nComps]; omega⟩,
        ⟨b.mount, b.loc, b.side, fun i hc => by have := b.handle i hc; simp only [nComps]; omega⟩⟩
  | setTransform j t =>
    refine ⟨i1, by simp [step, nComps, i2], i3, i4, ?_, ?_⟩
    · intro i c hc
      obtain ⟨y, h1, h2⟩ := modify_get hc
      obtain ⟨a1, a2, a3, a4, a5⟩ := i5 i y h1
      subst h2
      by_cases hj : j = i
      · simp only [hj, if_true, defOf, flipped, motion, wasRead, T.copy, nDefs, and_true]
        exact ⟨a1, a2, a3, ho.symm⟩
      · simp only [hj, if_false, defOf, flipped, motion, wasRead]
        exact ⟨a1, a2, a3, a4, a5⟩
    · intro k x hx
      obtain ⟨a, b⟩ := i6 k x hx
      exact ⟨⟨a.mount, a.loc, a.side, a.handle⟩, ⟨b.mount, b.loc, b.side, b.handle⟩⟩
  | addTransform j t =>
    refine ⟨i1, by simp [step, nComps, i2], i3, i4, ?_, ?_⟩
    · intro i c hc
      obtain ⟨y, h1, h2⟩ := modify_get hc
      obtain ⟨a1, a2, a3, a4, a5⟩ := i5 i y h1
      subst h2
      by_cases hj : j = i
      · subst hj
        have hn : y.trans.cache = none := by
          have := ho.2
          rw [← a5] at this
          simpa using this
        simp only [if_true, defOf, flipped, motion, wasRead, T.append, hn, nDefs]
        refine ⟨a1, a2, a3, ?_, ?_⟩
        · rw [product_append, product_filter, a4, ho.1]
        · rw [← a5, hn]
      · simp only [hj, if_false, defOf, flipped, motion, wasRead]
        exact ⟨a1, a2, a3, a4, a5⟩
    · intro k x hx
      obtain ⟨a, b⟩ := i6 k x hx
      exact ⟨⟨a.mount, a.loc, a.side, a.handle⟩, ⟨b.mount, b.loc, b.side, b.handle⟩⟩
  | readTransform j =>
    refine ⟨i1, by simp [step, nComps, i2], i3, i4, ?_, ?_⟩
    · intro i c hc
      obtain ⟨y, h1, h2⟩ := modify_get hc
      obtain ⟨a1, a2, a3, a4, a5⟩ := i5 i y h1
      subst h2
      by_cases hj : j = i
      · simp only [hj, if_true, defOf, flipped, motion, wasRead, nDefs]
        refine ⟨a1, a2, a3, ?_, ?_⟩
        · rw [← a4]; unfold T.get; split <;> rfl
        · unfold T.get
          split
          · simp_all
          · rfl
      · simp only [hj, if_false, defOf, flipped, motion, wasRead]
        exact ⟨a1, a2, a3, a4, a5⟩
    · intro k x hx
      obtain ⟨a, b⟩ := i6 k x hx
      exact ⟨⟨a.mount, a.loc, a.side, a.handle⟩, ⟨b.mount, b.loc, b.side, b.handle⟩⟩
  | setFlipped j f =>
    refine ⟨i1, by simp [step, nComps, i2], i3, i4, ?_, ?_⟩
    · intro i c hc
      obtain ⟨y, h1, h2⟩ := modify_get hc
      obtain ⟨a1, a2, a3, a4, a5⟩ := i5 i y h1
      subst h2
      by_cases hj : j = i
      · simp only [hj, if_true, defOf, flipped, motion, wasRead, nDefs, true_and]
        exact ⟨a1, a2, a4, a5⟩
      · simp only [hj, if_false, defOf, flipped, motion, wasRead]
        exact ⟨a1, a2, a3, a4, a5⟩
    · intro k x hx
      obtain ⟨a, b⟩ := i6 k x hx
      exact ⟨⟨a.mount, a.loc, a.side, a.handle⟩, ⟨b.mount, b.loc, b.side, b.handle⟩⟩
  | newWire p =>
    refine ⟨i1, i2, by simp [step, nWires, i3], i4, i5, ?_⟩
    intro k x hx
    rcases snoc_get hx with ⟨h1, h2⟩ | ⟨h1, h2⟩
    · obtain ⟨a, b⟩ := i6 k x h2
      have hn : ¬ nWires h = k := by omega
      exact ⟨⟨by simpa only [mounted, if_neg hn] using a.mount, by simpa only [free, if_neg hn] using a.loc,
          by simpa only [onLayer, if_neg hn] using a.side, a.handle⟩,
        ⟨by simpa only [mounted, if_neg hn] using b.mount, by simpa only [free, if_neg hn] using b.loc,
          by simpa only [onLayer, if_neg hn] using b.side, b.handle⟩⟩
    · subst h2
      have hn : nWires h = k := by omega
      constructor <;> constructor <;> simp [Wire.new, mounted, free, onLayer, hn]
  | setLayer j c l =>
    refine ⟨i1, i2, by simp [step, nWires, i3], i4, i5, ?_⟩
    intro k x hx
    obtain ⟨y, h1, h2⟩ := modify_get hx
    obtain ⟨⟨m1, l1, s1, d1⟩, ⟨m2, l2, s2, d2⟩⟩ := i6 k y h1
    subst h2
    by_cases hj : j = k
    · cases c <;> constructor <;> constructor <;>
        simp_all [Wire.upd, mounted, free, onLayer, End.setLayer, nComps] <;> simp [← s1, ← s2]
    · simp only [hj, if_false]
      constructor <;> constructor <;> simp_all [mounted, free, onLayer, nComps]
  | setLayerAt j c l p f =>
    refine ⟨i1, i2, by simp [step, nWires, i3], i4, i5, ?_⟩
    intro k x hx
    obtain ⟨y, h1, h2⟩ := modify_get hx
    obtain ⟨⟨m1, l1, s1, d1⟩, ⟨m2, l2, s2, d2⟩⟩ := i6 k y h1
    subst h2
    by_cases hj : j = k
    · cases c <;> constructor <;> constructor <;>
        simp_all [Wire.upd, mounted, free, onLayer, End.setLayer, End.setLayerAt, nComps]
    · simp only [hj, if_false]
      constructor <;> constructor <;> simp_all [mounted, free, onLayer, nComps]
  | setComponent j c i pin =>
    refine ⟨i1, i2, by simp [step, nWires, i3], i4, i5, ?_⟩
    intro k x hx
    obtain ⟨y, h1, h2⟩ := modify_get hx
    obtain ⟨⟨m1, l1, s1, d1⟩, ⟨m2, l2, s2, d2⟩⟩ := i6 k y h1
    subst h2
    have hi : ∀ i', i = some i' → i' < nComps h := by
      rintro i' rfl; exact ho
    by_cases hj : j = k
    · cases c <;> constructor <;> constructor <;>
        simp_all [Wire.upd, mounted, free, onLayer, End.setComponent, nComps] <;> simp [← s1, ← s2]
    · simp only [hj, if_false]
      constructor <;> constructor <;> simp_all [mounted, free, onLayer, nComps]
  | transformWire j t =>
    refine ⟨i1, i2, by simp [step, nWires, i3], i4, i5, ?_⟩
    intro k x hx
    obtain ⟨y, h1, h2⟩ := modify_get hx
    obtain ⟨⟨m1, l1, s1, d1⟩, ⟨m2, l2, s2, d2⟩⟩ := i6 k y h1
    subst h2
    by_cases hj : j = k
    · constructor <;> constructor <;>
        simp_all [mounted, free, onLayer, End.transform, nComps]
    · simp only [hj, if_false]
      constructor <;> constructor <;> simp_all [mounted, free, onLayer, nComps]

theorem inv_run (o : P) (h : List (Op F M P)) (hl : Legal h) :
    Inv h o (run ⟨[], [], []⟩ h.reverse) := by
  induction h with
  | nil => exact inv_empty o
  | cons op h ih =>
    rw [run_reverse_cons]
    exact inv_step o h op _ hl (ih hl.1)

theorem pinLocation_eq (o : P) (h : List (Op F M P)) (hl : Legal h) (i : Nat) (hi : i < nComps h)
    (name : String) :
    (run ⟨[], [], []⟩ h.reverse : World F M P).pinLocation i name = .ok (pinPoint i name h) := by
  have I := inv_run o h hl
  generalize (run ⟨[], [], []⟩ h.reverse : World F M P) = w at I
  obtain ⟨c, hc⟩ : ∃ c, w.comps[i]? = some c := by
    rw [← I.ncomps] at hi
    exact ⟨_, List.getElem?_eq_getElem hi⟩
  obtain ⟨a1, a2, a3, a4, _⟩ := I.comps i c hc
  obtain ⟨d, hd⟩ : ∃ d, w.defs[c.cdef]? = some d := by
    rw [← I.ndefs] at a2
    exact ⟨_, List.getElem?_eq_getElem a2⟩
  obtain ⟨b1, _⟩ := I.defs _ d hd
  obtain ⟨t, ht, hm⟩ := pose_ok c
  simp only [World.pinLocation, hc, hd, Comp.pinLocation, pinPoint, ← a1, ← b1 name, poseOf, ← a3, ← a4]
  cases findPin name d.pins with
  | none => rfl
  | some p => simp only [ht, Res.bind_ok, hm, Option.map_some]

/-- **C94**.  After any legal history every pin of a component is where the first pin of that name
was put in the definition, mirrored if the component is flipped, and then moved by the motions given to
the component since it was last placed; the outline is moved in the same way. Each end of a bond wire is
at the pin it is mounted at, or, without such a pin, where it was put (and moved with the wire).  None
of the calls is undefined.

Partial: histories that add a transform to a component after its transform was read are excluded, for
them the claim is false (`c94_read_refuted`). -/
theorem c94_mount_partial (o : P) (h : List (Op F M P)) (hl : Legal h) :
    let w : World F M P := run ⟨[], [], []⟩ h.reverse
    (∀ i < nComps h, (∀ name, w.pinLocation i name = .ok (pinPoint i name h)) ∧
      w.boundary i = .ok ((outline (defOf i h) h).map fun b => b.map fun p => poseOf i h • p)) ∧
    w.wires.length = nWires h ∧
    ∀ k x, w.wires[k]? = some x →
      w.point x.fst = .ok (endPoint o k true h) ∧ w.point x.snd = .ok (endPoint o k false h) := by
  intro w
  have I : Inv h o w := inv_run o h hl
  have hp : ∀ i < nComps h, ∀ name, w.pinLocation i name = .ok (pinPoint i name h) :=
    fun i hi name => pinLocation_eq o h hl i hi name
  refine ⟨fun i hi => ⟨hp i hi, ?_⟩, I.nwires, ?_⟩
  · obtain ⟨c, hc⟩ : ∃ c, w.comps[i]? = some c := by
      rw [← I.ncomps] at hi
      exact ⟨_, List.getElem?_eq_getElem hi⟩
    obtain ⟨a1, a2, a3, a4, _⟩ := I.comps i c hc
    obtain ⟨d, hd⟩ : ∃ d, w.defs[c.cdef]? = some d := by
      rw [← I.ndefs] at a2
      exact ⟨_, List.getElem?_eq_getElem a2⟩
    obtain ⟨_, b2⟩ := I.defs _ d hd
    obtain ⟨t, ht, hm⟩ := pose_ok c
    simp only [World.boundary, hc, hd, Comp.boundary, ← a1, ← b2, poseOf, ← a3, ← a4]
    cases d.boundary with
    | none => rfl
    | some b => simp only [ht, Res.bind_ok, hm, Option.map_some]
  · have key : ∀ k b (e : End P), EndInv h o k b e → w.point e = .ok (endPoint o k b h) := by
      rintro k b ⟨l, c, pin, loc, f⟩ ⟨m1, l1, s1, d1⟩
      simp only at m1 l1 d1
      simp only [World.point, endPoint, m1]
      cases c with
      | none => simp [l1]
      | some i =>
        simp only [Option.map_some]
        split
        · rw [l1]
        · rw [hp i (d1 i rfl)]
          simp only [Res.bind_ok]
          cases pinPoint i pin h with
          | none => simp [l1]
          | some p => rfl
    intro k x hx
    obtain ⟨a, b⟩ := I.wires k x hx
    exact ⟨key _ _ _ a, key _ _ _ b⟩

theorem pinPoint_add (h : List (Op F M P)) (i : Nat) (t : T F M) :
    (∀ name, pinPoint i name (.addTransform i t :: h) =
      (pinPoint i name h).map fun p => t.get.2 • p) ∧
    (∀ j, j ≠ i → ∀ name, pinPoint j name (.addTransform i t :: h) = pinPoint j name h) := by
  constructor
  · intro name
    simp only [pinPoint, pinAt, defOf, poseOf, motion, flipped, if_pos, Option.map_map]
    congr 1
    funext p
    simp only [Function.comp_apply, mul_smul]
    rfl
  · intro j hj name
    have hj' : ¬ i = j := fun e => hj e.symm
    simp only [pinPoint, pinAt, defOf, poseOf, motion, flipped, if_neg hj']
    rfl

/-- **C94** (following).  Adding a transform to a component moves its pins by that transform and
leaves those of other components alone; so the ends mounted at its pins move with it and no others. -/
theorem c94_follow (o : P) (h : List (Op F M P)) (i : Nat) (t : T F M) (hi : i < nComps h)
    (hl : Legal (.addTransform i t :: h)) :
    let w : World F M P := run ⟨[], [], []⟩ h.reverse
    let w' := step w (.addTransform i t)
    (∀ name p, w.pinLocation i name = .ok (some p) →
      w'.pinLocation i name = .ok (some (t.get.2 • p))) ∧
    (∀ j < nComps h, j ≠ i → ∀ name, w'.pinLocation j name = w.pinLocation j name) ∧
    ∀ e : End P, (∀ j, e.comp = some j → j < nComps h) →
      (e.comp ≠ some i → w'.point e = w.point e) ∧
      (∀ p, e.comp = some i → e.pin ≠ "" → w.pinLocation i e.pin = .ok (some p) →
        w'.point e = .ok (t.get.2 • p)) := by
  intro w w'
  have h1 : ∀ j < nComps h, ∀ name, w.pinLocation j name = .ok (pinPoint j name h) :=
    fun j hj name => pinLocation_eq o h hl.1 j hj name
  have h2 : ∀ j < nComps h, ∀ name,
      w'.pinLocation j name = .ok (pinPoint j name (.addTransform i t :: h)) := by
    intro j hj name
    have := pinLocation_eq o _ hl j hj name
    rwa [run_reverse_cons] at this
  obtain ⟨k1, k2⟩ := pinPoint_add h i t
  have a1 : ∀ name p, w.pinLocation i name = .ok (some p) →
      w'.pinLocation i name = .ok (some (t.get.2 • p)) := by
    intro name p hp
    rw [h1 i hi, Res.ok.injEq] at hp
    rw [h2 i hi, k1, hp]
    rfl
  have a2 : ∀ j < nComps h, j ≠ i → ∀ name, w'.pinLocation j name = w.pinLocation j name := by
    intro j hj hn name
    rw [h1 j hj, h2 j hj, k2 j hn]
  refine ⟨a1, a2, fun e he => ⟨fun hn => ?_, fun p hc hpin hp => ?_⟩⟩
  · unfold World.point
    cases hc : e.comp with
    | none => rfl
    | some j =>
      have : j ≠ i := fun e' => hn (by rw [hc, e'])
      simp only [a2 j (he j hc) this]
  · simp only [World.point, hc, if_neg hpin, a1 _ p hp, Res.bind_ok]

/-- **C94** (sides).  Asking on which layer an end is and on which side of it is undefined exactly
when it is said to be on a component without naming one. -/
theorem c94_side (o : P) (h : List (Op F M P)) (hl : Legal h) (k : Nat) (x : Wire P)
    (hx : (run ⟨[], [], []⟩ h.reverse : World F M P).wires[k]? = some x) (b : Bool) :
    (run ⟨[], [], []⟩ h.reverse : World F M P).side (if b then x.fst else x.snd) =
      if (onLayer k b h).1 = componentLayer then
        match mounted k b h with
        | none => .ub
        | some (i, _) => .ok (componentLayer, flipped i h)
      else .ok (onLayer k b h) := by
  have I := inv_run o h hl
  generalize (run ⟨[], [], []⟩ h.reverse : World F M P) = w at I hx
  have key : ∀ b (e : End P), EndInv h o k b e → w.side e = if (onLayer k b h).1 = componentLayer then
        match mounted k b h with
        | none => .ub
        | some (i, _) => .ok (componentLayer, flipped i h)
      else .ok (onLayer k b h) := by
    rintro b ⟨l, c, pin, loc, f⟩ ⟨m1, l1, s1, d1⟩
    simp only at m1 l1 s1 d1
    simp only [World.side, ← s1, m1]
    split
    · rename_i hl
      cases c with
      | none => rfl
      | some i =>
        have hi := d1 i rfl
        rw [← I.ncomps] at hi
        have hc := List.getElem?_eq_getElem hi
        obtain ⟨_, _, a3, _⟩ := I.comps i _ hc
        simp only [Option.map_some, hc, hl, a3]
    · rfl
  obtain ⟨a, c⟩ := I.wires k x hx
  cases b
  · exact key _ _ c
  · exact key _ _ a

/-- **C94 is false of the code**: once the transform of a component has been read, adding a
transform never moves its pins or its outline, although the component reports the added motion.
Whatever the state is. -/
theorem c94_read_refuted (w : World F M P) (i : Nat) (t : T F M) :
    let w' := step (step w (.readTransform i)) (.addTransform i t)
    (∀ j name, w'.pinLocation j name = w.pinLocation j name) ∧
    (∀ j, w'.boundary j = w.boundary j) ∧
    ∀ c, w.comps[i]? = some c →
      ∃ c', w'.comps[i]? = some c' ∧ c'.trans.get.2 = t.get.2 * c.trans.get.2 := by
  intro w'
  have hs : ∀ c : Comp F M, ((c.trans.get.1).append t).1.seq = c.trans.seq ∧
      ((c.trans.get.1).append t).1.get.2 = t.get.2 * c.trans.get.2 := by
    intro c
    rcases c with ⟨_, ⟨_ | m, s⟩, _⟩ <;> exact ⟨rfl, rfl⟩
  have hp : ∀ c : Comp F M, ∀ t' : T F M, t'.seq = c.trans.seq →
      Comp.pose { c with trans := t' } = c.pose := by
    intro c t' h
    simp only [Comp.pose]
    cases c.flipped <;>
      simp [T.new, T.set, editLast, T.append, h]
  have hw : ∀ j, w'.comps[j]? = (w.comps[j]?).map fun c =>
      if i = j then { c with trans := ((c.trans.get.1).append t).1 } else c := by
    intro j
    simp only [w', step, List.getElem?_modify, Option.map_eq_map, Option.map_map]
    congr 1
    funext c
    simp only [Function.comp_apply]
    split <;> rfl
  have hd : w'.defs = w.defs := rfl
  refine ⟨fun j name => ?_, fun j => ?_, fun c hc => ?_⟩
  · simp only [World.pinLocation, hw, hd]
    cases w.comps[j]? with
    | none => rfl
    | some c =>
      simp only [Option.map_some]
      by_cases hij : i = j
      · simp only [hij, if_true, Comp.pinLocation, hp c _ (hs c).1]
      · simp only [hij, if_false]
  · simp only [World.boundary, hw, hd]
    cases w.comps[j]? with
    | none => rfl
    | some c =>
      simp only [Option.map_some]
      by_cases hij : i = j
      · simp only [hij, if_true, Comp.boundary, hp c _ (hs c).1]
      · simp only [hij, if_false]
  · refine ⟨_, by rw [hw, hc]; rfl, ?_⟩
    simp only [if_true]
    exact (hs c).2

/-- **C94 is false of the code** (pins): a pin created with a name already in use is never found. -/
theorem c94_same_name_refuted (d : CompDef P) (name : String) (p : P) (q : Pin P)
    (hq : findPin name d.pins = some q) :
    findPin name (d.createPin name p).pins = some q ∧
      (d.createPin name p).pins.length = d.pins.length + 1 := by
  constructor
  · simp [CompDef.createPin, findPin_append, hq]
  · simp [CompDef.createPin]

/-! ### examples -/

/-- Motions of the line made by a shift, where mirroring negates. -/
local instance exKit : Kit ℤ (Function.End ℤ) where
  scaleT s := fun x => s * x
  rotateT a := fun x => x + 0 * a
  mirrorT _ := fun x => -x
  shiftT v := fun x => x + v.1

/-- shift by `v` -/
def exShift (v : ℤ) : T ℤ (Function.End ℤ) := ⟨none, [⟨1, 0, none, (v, 0)⟩]⟩

/-- A flipped component with two pins, moved twice, and a wire from its second pin to a point that is
moved; newest call first. -/
def exHist : List (Op ℤ (Function.End ℤ) ℤ) :=
  [.addTransform 0 (exShift 3), .setFlipped 0 true, .transformWire 0 (exShift 5),
    .setLayerAt 0 false 2 7 false, .setComponent 0 true (some 0) "b", .newWire 0,
    .readTransform 1, .newComp 0 (exShift 1) false,
    .addTransform 0 (exShift 10), .newComp 0 (exShift 100) false,
    .createPin 0 "b" 4, .createPin 0 "a" 1, .newDef (some [0, 9])]

/-- The hypotheses of `c94_mount_partial`, `c94_follow` and `c94_side` can be met. -/
example : Legal exHist ∧ 0 < nComps exHist := by
  refine ⟨?_, by decide⟩
  have hs : ∀ v, Sound (exShift v) := fun v => rfl
  simp only [exHist, Legal, nDefs, nComps, wasRead, hs]
  decide

/-- The pin `b` of that component: 4, mirrored, then moved by 100, 10 and 3; the wire starts there and
ends at 7, moved by 5. -/
example : pinPoint 0 "b" exHist = some 109 ∧ endPoint 0 0 true exHist = 109 ∧
    endPoint 0 0 false exHist = 12 ∧ pinPoint 1 "a" exHist = some 2 := by
  decide +kernel

/-- The hypothesis of `c94_same_name_refuted` can be met. -/
example : findPin "a" (⟨[⟨"a", (1 : ℤ)⟩, ⟨"b", 2⟩], none⟩ : CompDef ℤ).pins = some ⟨"a", 1⟩ := by
  decide

end Ecad.Mount
