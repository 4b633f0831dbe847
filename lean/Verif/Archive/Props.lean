import Verif.Archive.Model
import Mathlib.Data.List.Infix
import Mathlib.Data.List.NodupEquivFin
import Mathlib.Data.Finset.Card
import Mathlib.Algebra.Group.End

/-!
# C120: what comes back when a saved database is loaded

Saying of two databases that they are the same must not mention addresses, so it is said with a
renaming of addresses.  A database is saved as what can be reached from it; the theorems show that
what is loaded is that part, object by object, with every member but those of `lost`.
-/

namespace Ecad.Arc

/-! ### Specification -/

/-- The items of a member under a renaming of addresses. -/
def Item.via (g : Nat → Nat) : Item → Item
  | .atom v => .atom v
  | .ptr p => .ptr (p.map g)

/-- The members of the database itself. -/
def dbMembers : List Mem := ["name", "uuid", "coord_units", "collection"]

/-- The members that do not survive. -/
def lost : Cls → List Mem
  | .ELayoutView => ["name", "uuid"]
  | .ENetCollection => ["net_id_name_map"]
  | .EText | .EPadstackInst | .ECellInst | .EComponent | .EShapeFromTemplate => ["transform.matrix"]
  | _ => []

/-- What can be reached from a database through members that survive. -/
inductive Reach (h : Heap) (d : Mem → List Item) : Nat → Prop
  | root {m : Mem} {p : Nat} : m ∈ dbMembers → .ptr (some p) ∈ d m → Reach h d p
  | step {p q : Nat} {o : Obj} {m : Mem} : Reach h d p → h[p]? = some o → m ∈ members o.cls →
      m ∉ lost o.cls → .ptr (some q) ∈ o.mem m → Reach h d q

/-- No pointer that is followed dangles. -/
def Sound (h : Heap) (d : Mem → List Item) : Prop := ∀ p, Reach h d p → ∃ o, h[p]? = some o

/-- A grid thermal model can be reached. -/
def HasGrid (h : Heap) (d : Mem → List Item) : Prop :=
  ∃ p o, Reach h d p ∧ h[p]? = some o ∧ o.cls = .EGridThermalModel

/-- The second database is a copy of the first, but for the lost members. -/
structure CopyOf (h : Heap) (d : Mem → List Item) (h' : Heap) (d' : Mem → List Item)
    (g : Nat → Nat) : Prop where
  top : ∀ m ∈ dbMembers, d' m = (d m).map (Item.via g)
  objs : ∀ p o, Reach h d p → h[p]? = some o → ∃ o', h'[g p]? = some o' ∧ o'.cls = o.cls ∧
    ∀ m ∈ members o.cls, o'.mem m = if m ∈ lost o.cls then [] else (o.mem m).map (Item.via g)
  inj : ∀ p q, Reach h d p → Reach h d q → g p = g q → p = q
  onto : ∀ k < h'.length, ∃ p, Reach h d p ∧ g p = k

/-- The second database is a copy of the first. -/
structure Same (h : Heap) (d : Mem → List Item) (h' : Heap) (d' : Mem → List Item)
    (g : Nat → Nat) : Prop where
  top : ∀ m ∈ dbMembers, d' m = (d m).map (Item.via g)
  objs : ∀ p o, Reach h d p → h[p]? = some o → ∃ o', h'[g p]? = some o' ∧ o'.cls = o.cls ∧
    ∀ m ∈ members o.cls, o'.mem m = (o.mem m).map (Item.via g)
  inj : ∀ p q, Reach h d p → Reach h d q → g p = g q → p = q
  onto : ∀ k < h'.length, ∃ p, Reach h d p ∧ g p = k

/-! ### The tables -/

theorem ser_mem {c : Cls} {ms : List Mem} (h : serialize c = some ms) (m : Mem) :
    m ∈ ms ↔ m ∈ members c ∧ m ∉ lost c := by
  have h1 : ∀ m ∈ ms, m ∈ members c ∧ m ∉ lost c := by
    revert h; cases c <;> intro h <;> simp only [serialize, Option.some.injEq, reduceCtorEq] at h <;>
      subst h <;> decide
  have h2 : ∀ m ∈ members c, m ∉ lost c → m ∈ ms := by
    revert h; cases c <;> intro h <;> simp only [serialize, Option.some.injEq, reduceCtorEq] at h <;>
      subst h <;> decide
  exact ⟨h1 m, fun x => h2 m x.1 x.2⟩

theorem ser_nodup {c : Cls} {ms : List Mem} (h : serialize c = some ms) : ms.Nodup := by
  revert h; cases c <;> intro h <;> simp only [serialize, Option.some.injEq, reduceCtorEq] at h <;>
      subst h <;> decide

theorem ser_none (c : Cls) : serialize c = none ↔ c = .EGridThermalModel := by
  cases c <;> simp [serialize]

theorem db_mem (m : Mem) : m ∈ serDatabase ↔ m ∈ dbMembers := by
  have h1 : ∀ m ∈ serDatabase, m ∈ dbMembers := by decide
  have h2 : ∀ m ∈ dbMembers, m ∈ serDatabase := by decide
  exact ⟨h1 m, h2 m⟩

/-! ### Writing: which objects are met -/

/-- What a piece of writing that ended well does to the objects met. -/
structure Ext (h : Heap) (R : Nat → Prop) (vis vis' : List Nat) : Prop where
  pre : ∃ ext, vis' = vis ++ ext ∧ ∀ q ∈ ext, R q
  nodup : vis.Nodup → vis'.Nodup
  closed : ∀ q ∈ vis', q ∉ vis → ∃ o ms, h[q]? = some o ∧ serialize o.cls = some ms ∧
    ∀ m ∈ ms, ∀ r, Item.ptr (some r) ∈ o.mem m → r ∈ vis'

theorem Ext.refl (h : Heap) (R : Nat → Prop) (vis : List Nat) : Ext h R vis vis :=
  ⟨⟨[], by simp⟩, id, fun q h1 h2 => absurd h1 h2⟩

theorem Ext.sub {h : Heap} {R : Nat → Prop} {a b : List Nat} (e : Ext h R a b) : ∀ q ∈ a, q ∈ b := by
  obtain ⟨x, hx, _⟩ := e.pre
  intro q hq; rw [hx]; exact List.mem_append_left _ hq

theorem Ext.trans {h : Heap} {R : Nat → Prop} {a b c : List Nat} (e : Ext h R a b)
    (e' : Ext h R b c) : Ext h R a c := by
  obtain ⟨x, hx, hx'⟩ := e.pre
  obtain ⟨y, hy, hy'⟩ := e'.pre
  refine ⟨⟨x ++ y, by rw [hy, hx, List.append_assoc], ?_⟩, fun n => e'.nodup (e.nodup n), ?_⟩
  · intro q hq
    rcases List.mem_append.1 hq with hq | hq
    · exact hx' q hq
    · exact hy' q hq
  · intro q hq hn
    by_cases hb : q ∈ b
    · obtain ⟨o, ms, h1, h2, h3⟩ := e.closed q hb hn
      exact ⟨o, ms, h1, h2, fun m hm r hr => e'.sub r (h3 m hm r hr)⟩
    · exact e'.closed q hq hb

/-- What is asked of the function that writes objects. -/
def FOk (h : Heap) (R : Nat → Prop) (f : SaveF) : Prop :=
  ∀ p vis t vis', R p → p ∉ vis → f p vis = .ok (t, vis') → Ext h R vis vis' ∧ p ∈ vis'

theorem bind_ok {α β : Type} {x : Out α} {f : α → Out β} {b : β} (h : x.bind f = .ok b) :
    ∃ a, x = .ok a ∧ f a = .ok b := by
  cases x with
  | ok a => exact ⟨a, rfl, h⟩
  | _ => simp [Out.bind] at h

theorem item_ext {h : Heap} {R : Nat → Prop} {f : SaveF} (hf : FOk h R f) {i : Item}
    {vis t vis'} (hR : ∀ p, i = .ptr (some p) → R p) (e : saveItem f i vis = .ok (t, vis')) :
    Ext h R vis vis' ∧ ∀ p, i = .ptr (some p) → p ∈ vis' := by
  match i with
  | .atom v => simp only [saveItem, Out.ok.injEq, Prod.mk.injEq] at e; rw [← e.2]
               exact ⟨Ext.refl _ _ _, fun p hp => by simp at hp⟩
  | .ptr none => simp only [saveItem, Out.ok.injEq, Prod.mk.injEq] at e; rw [← e.2]
                 exact ⟨Ext.refl _ _ _, fun p hp => by simp at hp⟩
  | .ptr (some p) =>
    by_cases hp : p ∈ vis
    · simp only [saveItem, hp, ↓reduceIte, Out.ok.injEq, Prod.mk.injEq] at e; rw [← e.2]
      exact ⟨Ext.refl _ _ _, fun q hq => by simp only [Item.ptr.injEq, Option.some.injEq] at hq; exact hq ▸ hp⟩
    · simp only [saveItem, hp, ↓reduceIte] at e
      obtain ⟨h1, h2⟩ := hf p vis t vis' (hR p rfl) hp e
      exact ⟨h1, fun q hq => by simp only [Item.ptr.injEq, Option.some.injEq] at hq; exact hq ▸ h2⟩

theorem items_ext {h : Heap} {R : Nat → Prop} {f : SaveF} (hf : FOk h R f) : ∀ {its : List Item}
    {vis t vis'}, (∀ p, .ptr (some p) ∈ its → R p) → saveItems f its vis = .ok (t, vis') →
    Ext h R vis vis' ∧ ∀ p, .ptr (some p) ∈ its → p ∈ vis'
  | [], vis, t, vis', _, e => by
    simp only [saveItems, Out.ok.injEq, Prod.mk.injEq] at e; rw [← e.2]
    exact ⟨Ext.refl _ _ _, fun p hp => by simp at hp⟩
  | i :: r, vis, t, vis', hR, e => by
    obtain ⟨x, hx, e⟩ := bind_ok e
    obtain ⟨y, hy, e⟩ := bind_ok e
    simp only [Out.ok.injEq, Prod.mk.injEq] at e
    obtain ⟨a1, a2⟩ := item_ext hf (vis' := x.2) (t := x.1) (fun p hp => hR p (by simp [hp])) hx
    obtain ⟨b1, b2⟩ := items_ext hf (vis' := y.2) (t := y.1) (fun p hp => hR p (by simp [hp])) hy
    rw [← e.2]
    refine ⟨a1.trans b1, fun p hp => ?_⟩
    rcases List.mem_cons.1 hp with hp | hp
    · exact b1.sub p (a2 p hp.symm)
    · exact b2 p hp

theorem mems_ext {h : Heap} {R : Nat → Prop} {f : SaveF} (hf : FOk h R f) {o : Mem → List Item} :
    ∀ {ms : List Mem} {vis t vis'}, (∀ m ∈ ms, ∀ p, .ptr (some p) ∈ o m → R p) →
    saveMems f o ms vis = .ok (t, vis') →
    Ext h R vis vis' ∧ ∀ m ∈ ms, ∀ p, .ptr (some p) ∈ o m → p ∈ vis'
  | [], vis, t, vis', _, e => by
    simp only [saveMems, Out.ok.injEq, Prod.mk.injEq] at e; rw [← e.2]
    exact ⟨Ext.refl _ _ _, fun p hp => by simp at hp⟩
  | m :: r, vis, t, vis', hR, e => by
    obtain ⟨x, hx, e⟩ := bind_ok e
    obtain ⟨y, hy, e⟩ := bind_ok e
    simp only [Out.ok.injEq, Prod.mk.injEq] at e
    obtain ⟨a1, a2⟩ := items_ext hf (vis' := x.2) (t := x.1) (fun p hp => hR m (by simp) p hp) hx
    obtain ⟨b1, b2⟩ := mems_ext hf (vis' := y.2) (t := y.1)
      (fun k hk p hp => hR k (by simp [hk]) p hp) hy
    rw [← e.2]
    refine ⟨a1.trans b1, fun k hk p hp => ?_⟩
    rcases List.mem_cons.1 hk with hk | hk
    · subst hk; exact b1.sub p (a2 p hp)
    · exact b2 k hk p hp

theorem obj_ext {h : Heap} {d : Mem → List Item} : ∀ n, FOk h (Reach h d) (saveObj h n)
  | 0 => fun p vis t vis' _ _ e => by simp [saveObj] at e
  | n + 1 => fun p vis t vis' hp hn e => by
    simp only [saveObj] at e
    cases ho : h[p]? with
    | none => simp [ho] at e
    | some o =>
      simp only [ho] at e
      cases hs : serialize o.cls with
      | none => simp [hs] at e
      | some ms =>
        simp only [hs] at e
        obtain ⟨x, hx, e⟩ := bind_ok e
        simp only [Out.ok.injEq, Prod.mk.injEq] at e
        obtain ⟨a1, a2⟩ := mems_ext (obj_ext n) (vis' := x.2) (t := x.1)
          (fun m hm q hq => Reach.step hp ho ((ser_mem hs m).1 hm).1 ((ser_mem hs m).1 hm).2 hq) hx
        rw [← e.2]
        have hpx : p ∈ x.2 := a1.sub p (by simp)
        refine ⟨⟨?_, ?_, ?_⟩, hpx⟩
        · obtain ⟨y, hy, hy'⟩ := a1.pre
          refine ⟨p :: y, by rw [hy, List.append_assoc]; rfl, ?_⟩
          intro q hq
          rcases List.mem_cons.1 hq with hq | hq
          · exact hq ▸ hp
          · exact hy' q hq
        · intro hv
          exact a1.nodup (by simpa [List.nodup_append] using ⟨hv, fun a ha e => hn (e ▸ ha)⟩)
        · intro q hq hv
          by_cases hqp : q = p
          · subst hqp; exact ⟨o, ms, ho, hs, fun m hm r hr => a2 m hm r hr⟩
          · exact a1.closed q hq (by simp [hv, hqp])

/-! ### Writing: that it ends well -/

/-- What happens to writing from a sound state: it throws because of a grid model, or ends well. -/
def Fine (G : Prop) (o : Out (List Tok × List Nat)) : Prop := (o = .exn ∧ G) ∨ ∃ x, o = .ok x

theorem items_fine {h : Heap} {R : Nat → Prop} {G : Prop} {f : SaveF} (hf : FOk h R f) {k : Nat}
    (hg : ∀ p vis, R p → p ∉ vis → vis.Nodup → (∀ q ∈ vis, R q) → k ≤ vis.length → Fine G (f p vis)) :
    ∀ (its : List Item) (vis : List Nat), (∀ p, .ptr (some p) ∈ its → R p) → vis.Nodup →
    (∀ q ∈ vis, R q) → k ≤ vis.length → Fine G (saveItems f its vis)
  | [], vis, _, _, _, _ => Or.inr ⟨_, rfl⟩
  | i :: r, vis, hR, hv, hq, hk => by
    have h1 : Fine G (saveItem f i vis) := by
      match i with
      | .atom v => exact Or.inr ⟨_, rfl⟩
      | .ptr none => exact Or.inr ⟨_, rfl⟩
      | .ptr (some p) =>
        by_cases hp : p ∈ vis
        · exact Or.inr ⟨([.ref (vis.idxOf p)], vis), by simp [saveItem, hp]⟩
        · simp only [saveItem, hp, ↓reduceIte]; exact hg p vis (hR p (by simp)) hp hv hq hk
    rcases h1 with ⟨h1, hG⟩ | ⟨⟨t, v⟩, hx⟩
    · exact Or.inl ⟨by simp [saveItems, h1, Out.bind], hG⟩
    · obtain ⟨e1, _⟩ := item_ext hf (fun p hp => hR p (by simp [hp])) hx
      have h2 := items_fine hf hg r v (fun p hp => hR p (by simp [hp])) (e1.nodup hv)
        (by
          obtain ⟨y, hy, hy'⟩ := e1.pre
          rw [hy]; intro q hq'
          rcases List.mem_append.1 hq' with hq' | hq'
          · exact hq q hq'
          · exact hy' q hq')
        (by
          obtain ⟨y, hy, _⟩ := e1.pre
          rw [hy, List.length_append]; omega)
      rcases h2 with ⟨h2, hG⟩ | ⟨y, hy⟩
      · exact Or.inl ⟨by simp [saveItems, hx, h2, Out.bind], hG⟩
      · exact Or.inr ⟨(t ++ y.1, y.2), by simp [saveItems, hx, hy, Out.bind]⟩

theorem mems_fine {h : Heap} {R : Nat → Prop} {G : Prop} {f : SaveF} (hf : FOk h R f) {k : Nat}
    (hg : ∀ p vis, R p → p ∉ vis → vis.Nodup → (∀ q ∈ vis, R q) → k ≤ vis.length → Fine G (f p vis))
    (o : Mem → List Item) :
    ∀ (ms : List Mem) (vis : List Nat), (∀ m ∈ ms, ∀ p, .ptr (some p) ∈ o m → R p) → vis.Nodup →
    (∀ q ∈ vis, R q) → k ≤ vis.length → Fine G (saveMems f o ms vis)
  | [], vis, _, _, _, _ => Or.inr ⟨_, rfl⟩
  | m :: r, vis, hR, hv, hq, hk => by
    have h1 := items_fine hf hg (o m) vis (fun p hp => hR m (by simp) p hp) hv hq hk
    rcases h1 with ⟨h1, hG⟩ | ⟨⟨t, v⟩, hx⟩
    · exact Or.inl ⟨by simp [saveMems, h1, Out.bind], hG⟩
    · obtain ⟨e1, _⟩ := items_ext hf (fun p hp => hR m (by simp) p hp) hx
      have h2 := mems_fine hf hg o r v (fun k hk p hp => hR k (by simp [hk]) p hp) (e1.nodup hv)
        (by
          obtain ⟨y, hy, hy'⟩ := e1.pre
          rw [hy]; intro q hq'
          rcases List.mem_append.1 hq' with hq' | hq'
          · exact hq q hq'
          · exact hy' q hq')
        (by
          obtain ⟨y, hy, _⟩ := e1.pre
          rw [hy, List.length_append]; omega)
      rcases h2 with ⟨h2, hG⟩ | ⟨y, hy⟩
      · exact Or.inl ⟨by simp [saveMems, hx, h2, Out.bind], hG⟩
      · exact Or.inr ⟨(.len (o m).length :: (t ++ y.1), y.2), by simp [saveMems, hx, hy, Out.bind]⟩

/-- Different addresses of objects are no more than there are objects. -/
theorem nodup_le {n : Nat} {l : List Nat} (hl : l.Nodup) (h : ∀ q ∈ l, q < n) : l.length ≤ n := by
  have h1 := List.toFinset_card_of_nodup hl
  have h2 : l.toFinset ⊆ Finset.range n := fun q hq => by simp at hq ⊢; exact h q hq
  have h3 := Finset.card_le_card h2
  rw [Finset.card_range] at h3; omega

theorem obj_fine {h : Heap} {d : Mem → List Item} (hs : Sound h d) : ∀ (n : Nat) (p : Nat)
    (vis : List Nat), Reach h d p → p ∉ vis → vis.Nodup → (∀ q ∈ vis, Reach h d q) →
    h.length - n ≤ vis.length → Fine (HasGrid h d) (saveObj h n p vis)
  | n, p, vis, hp, hn, hv, hq, hl => by
    have lt : ∀ q, Reach h d q → q < h.length := fun q hq => by
      obtain ⟨o, ho⟩ := hs q hq
      exact (List.getElem?_eq_some_iff.1 ho).1
    have hnd : (vis ++ [p]).Nodup := by
      simpa [List.nodup_append] using ⟨hv, fun a ha e => hn (e ▸ ha)⟩
    have hle := nodup_le (n := h.length) hnd (fun q h1 => by
      rcases List.mem_append.1 h1 with h1 | h1
      · exact lt q (hq q h1)
      · simp only [List.mem_singleton] at h1; exact h1 ▸ lt p hp)
    simp only [List.length_append, List.length_singleton] at hle
    match n with
    | 0 => omega
    | n + 1 =>
      obtain ⟨o, ho⟩ := hs p hp
      simp only [saveObj, ho]
      cases hse : serialize o.cls with
      | none => exact Or.inl ⟨rfl, p, o, hp, ho, (ser_none _).1 hse⟩
      | some ms =>
        dsimp only
        have hf := mems_fine (G := HasGrid h d) (obj_ext (h := h) (d := d) n) (k := h.length - n)
          (fun q v a1 a2 a3 a4 a5 => obj_fine hs n q v a1 a2 a3 a4 a5) o.mem ms (vis ++ [p])
          (fun m hm q hq => Reach.step hp ho ((ser_mem hse m).1 hm).1 ((ser_mem hse m).1 hm).2 hq)
          hnd (fun q h1 => by
            rcases List.mem_append.1 h1 with h1 | h1
            · exact hq q h1
            · simp only [List.mem_singleton] at h1; exact h1 ▸ hp)
          (by simp only [List.length_append, List.length_singleton]; omega)
        rcases hf with ⟨hf, hG⟩ | ⟨x, hx⟩
        · exact Or.inl ⟨by simp [hf, Out.bind], hG⟩
        · exact Or.inr ⟨_, by simp only [hx, Out.bind]; rfl⟩

/-- The objects met by writing a database are those that can be reached. -/
theorem met {h : Heap} {d : Mem → List Item} {n : Nat} {t : List Tok} {vis : List Nat}
    (e : saveMems (saveObj h n) d serDatabase [] = .ok (t, vis)) :
    vis.Nodup ∧ (∀ q, q ∈ vis ↔ Reach h d q) ∧
    ∀ q ∈ vis, ∃ o ms, h[q]? = some o ∧ serialize o.cls = some ms ∧
      ∀ m ∈ ms, ∀ r, Item.ptr (some r) ∈ o.mem m → r ∈ vis := by
  obtain ⟨e1, e2⟩ := mems_ext (obj_ext (h := h) (d := d) n)
    (fun m hm p hp => Reach.root ((db_mem m).1 hm) hp) e
  have hc : ∀ q ∈ vis, ∃ o ms, h[q]? = some o ∧ serialize o.cls = some ms ∧
      ∀ m ∈ ms, ∀ r, Item.ptr (some r) ∈ o.mem m → r ∈ vis := fun q hq => e1.closed q hq (by simp)
  refine ⟨e1.nodup (by simp), fun q => ⟨fun hq => ?_, fun hq => ?_⟩, hc⟩
  · obtain ⟨x, hx, hx'⟩ := e1.pre
    exact hx' q (by simpa [hx] using hq)
  · induction hq with
    | root hm hp => exact e2 _ ((db_mem _).2 hm) _ hp
    | step _ ho hm hl hp ih =>
      obtain ⟨o, ms, h1, h2, h3⟩ := hc _ ih
      rw [ho] at h1
      obtain rfl := Option.some.inj h1
      exact h3 _ ((ser_mem h2 _).2 ⟨hm, hl⟩) _ hp

/-- Writing a sound database ends well exactly when no grid model can be reached, and throws
otherwise. -/
theorem write_iff {h : Heap} {d : Mem → List Item} (hs : Sound h d) {n : Nat} (hn : h.length ≤ n) :
    (HasGrid h d ∧ saveMems (saveObj h n) d serDatabase [] = .exn) ∨
    (¬ HasGrid h d ∧ ∃ x, saveMems (saveObj h n) d serDatabase [] = .ok x) := by
  have hf := mems_fine (G := HasGrid h d) (obj_ext (h := h) (d := d) n) (k := h.length - n)
    (fun q v a1 a2 a3 a4 a5 => obj_fine hs n q v a1 a2 a3 a4 a5) d serDatabase []
    (fun m hm p hp => Reach.root ((db_mem m).1 hm) hp) (by simp) (by simp) (by omega)
  rcases hf with ⟨hf, hG⟩ | ⟨⟨t, vis⟩, hx⟩
  · exact Or.inl ⟨hG, hf⟩
  · refine Or.inr ⟨?_, _, hx⟩
    rintro ⟨p, o, hp, ho, hc⟩
    obtain ⟨_, h2, h3⟩ := met hx
    obtain ⟨o', ms, h4, h5, _⟩ := h3 p ((h2 p).2 hp)
    rw [ho] at h4
    obtain rfl := Option.some.inj h4
    rw [(ser_none _).2 hc] at h5
    simp at h5

/-! ### Reading back -/

/-- The object that is read back for the object at an address. -/
def img (h : Heap) (all : List Nat) (p : Nat) : Option Obj :=
  match h[p]? with
  | none => none
  | some o => some ⟨o.cls, fun m => if m ∈ (serialize o.cls).getD [] then
      (o.mem m).map (Item.via all.idxOf) else [], false⟩

/-- What reading back a piece does to the objects read. -/
structure Grow (h : Heap) (all vis vis' : List Nat) (lh lh' : LHeap) : Prop where
  len : lh'.length = vis'.length
  old : ∀ i < vis.length, lh'[i]? = lh[i]?
  new : ∀ i, vis.length ≤ i → ∀ p, vis'[i]? = some p → lh'[i]? = some (img h all p)

theorem Grow.refl {h : Heap} {all vis : List Nat} {lh : LHeap} (e : lh.length = vis.length) :
    Grow h all vis vis lh lh :=
  ⟨e, fun _ _ => rfl, fun i hi p hp => by
    have := (List.getElem?_eq_some_iff.1 hp).1; omega⟩

theorem Grow.trans {h : Heap} {all a b c : List Nat} {x y z : LHeap} (hab : a <+: b) (hbc : b <+: c)
    (g : Grow h all a b x y) (g' : Grow h all b c y z) : Grow h all a c x z := by
  have h1 := hab.length_le
  refine ⟨g'.len, fun i hi => ?_, fun i hi p hp => ?_⟩
  · rw [g'.old i (by omega), g.old i hi]
  · by_cases hb : i < b.length
    · rw [g'.old i hb]
      refine g.new i hi p ?_
      obtain ⟨w, rfl⟩ := hbc
      rwa [List.getElem?_append_left hb] at hp
    · exact g'.new i (by omega) p hp

/-- What is asked of the functions that write and read objects. -/
def LOk (h : Heap) (R : Nat → Prop) (all : List Nat) (f : SaveF) (g : LoadF) : Prop :=
  ∀ p vis t vis', R p → p ∉ vis → f p vis = .ok (t, vis') → vis' <+: all →
  ∃ c t', t = .new c :: t' ∧ ∀ rest lh, lh.length = vis.length →
    ∃ lh', g c (t' ++ rest) lh = some (all.idxOf p, rest, lh') ∧ Grow h all vis vis' lh lh'

theorem idx_pre {all vis : List Nat} (hp : vis <+: all) {p : Nat} (h : p ∈ vis) :
    vis.idxOf p = all.idxOf p := by
  obtain ⟨w, rfl⟩ := hp
  rw [List.idxOf_append_of_mem h]

theorem Ext.prefix {h : Heap} {R : Nat → Prop} {a b : List Nat} (e : Ext h R a b) : a <+: b := by
  obtain ⟨x, hx, _⟩ := e.pre
  exact ⟨x, hx.symm⟩

theorem item_load {h : Heap} {R : Nat → Prop} {all : List Nat} {f : SaveF} {g : LoadF}
    (hl : LOk h R all f g) {i : Item} {vis t vis'} (hR : ∀ p, i = .ptr (some p) → R p)
    (e : saveItem f i vis = .ok (t, vis')) (hp : vis' <+: all) (rest : List Tok) (lh : LHeap)
    (hlen : lh.length = vis.length) :
    ∃ lh', loadItem g (t ++ rest) lh = some (i.via all.idxOf, rest, lh') ∧
      Grow h all vis vis' lh lh' := by
  match i with
  | .atom v =>
    simp only [saveItem, Out.ok.injEq, Prod.mk.injEq] at e
    obtain ⟨rfl, rfl⟩ := e
    exact ⟨lh, rfl, Grow.refl hlen⟩
  | .ptr none =>
    simp only [saveItem, Out.ok.injEq, Prod.mk.injEq] at e
    obtain ⟨rfl, rfl⟩ := e
    exact ⟨lh, rfl, Grow.refl hlen⟩
  | .ptr (some p) =>
    by_cases hv : p ∈ vis
    · simp only [saveItem, hv, ↓reduceIte, Out.ok.injEq, Prod.mk.injEq] at e
      obtain ⟨rfl, rfl⟩ := e
      refine ⟨lh, ?_, Grow.refl hlen⟩
      have h1 : vis.idxOf p < lh.length := by rw [hlen]; exact List.idxOf_lt_length_iff.2 hv
      simp only [List.singleton_append, loadItem, h1, ↓reduceIte, Item.via, Option.map]
      rw [idx_pre hp hv]
    · simp only [saveItem, hv, ↓reduceIte] at e
      obtain ⟨c, t', rfl, h2⟩ := hl p vis t vis' (hR p rfl) hv e hp
      obtain ⟨lh', h3, h4⟩ := h2 rest lh hlen
      exact ⟨lh', by simp only [List.cons_append, loadItem, h3, Option.map]; rfl, h4⟩

theorem items_load {h : Heap} {R : Nat → Prop} {all : List Nat} {f : SaveF} {g : LoadF}
    (hf : FOk h R f) (hl : LOk h R all f g) : ∀ {its : List Item} {vis t vis'},
    (∀ p, .ptr (some p) ∈ its → R p) → saveItems f its vis = .ok (t, vis') → vis' <+: all →
    ∀ (rest : List Tok) (lh : LHeap), lh.length = vis.length →
    ∃ lh', loadItems g its.length (t ++ rest) lh = some (its.map (Item.via all.idxOf), rest, lh') ∧
      Grow h all vis vis' lh lh'
  | [], vis, t, vis', _, e, _, rest, lh, hlen => by
    simp only [saveItems, Out.ok.injEq, Prod.mk.injEq] at e
    obtain ⟨rfl, rfl⟩ := e
    exact ⟨lh, rfl, Grow.refl hlen⟩
  | i :: r, vis, t, vis', hR, e, hp, rest, lh, hlen => by
    obtain ⟨⟨t1, v1⟩, hx, e⟩ := bind_ok e
    obtain ⟨⟨t2, v2⟩, hy, e⟩ := bind_ok e
    simp only [Out.ok.injEq, Prod.mk.injEq] at e
    obtain ⟨rfl, rfl⟩ := e
    obtain ⟨a1, _⟩ := item_ext hf (fun p hp => hR p (by simp [hp])) hx
    obtain ⟨b1, _⟩ := items_ext hf (fun p hp => hR p (by simp [hp])) hy
    obtain ⟨l1, c1, c2⟩ := item_load hl (fun p hp => hR p (by simp [hp])) hx
      (b1.prefix.trans hp) (t2 ++ rest) lh hlen
    obtain ⟨l2, d1, d2⟩ := items_load hf hl (fun p hp => hR p (by simp [hp])) hy hp rest l1 c2.len
    refine ⟨l2, ?_, c2.trans a1.prefix b1.prefix d2⟩
    simp only [List.length_cons, loadItems, List.append_assoc, c1, Option.bind_some, d1,
      Option.map_some, List.map_cons]

theorem mems_load {h : Heap} {R : Nat → Prop} {all : List Nat} {f : SaveF} {g : LoadF}
    (hf : FOk h R f) (hl : LOk h R all f g) {o : Mem → List Item} : ∀ {ms : List Mem} {vis t vis'},
    (∀ m ∈ ms, ∀ p, .ptr (some p) ∈ o m → R p) → saveMems f o ms vis = .ok (t, vis') →
    vis' <+: all → ∀ (rest : List Tok) (lh : LHeap), lh.length = vis.length →
    ∃ lh', loadMems g ms (t ++ rest) lh =
      some (fun m => if m ∈ ms then (o m).map (Item.via all.idxOf) else [], rest, lh') ∧
      Grow h all vis vis' lh lh'
  | [], vis, t, vis', _, e, _, rest, lh, hlen => by
    simp only [saveMems, Out.ok.injEq, Prod.mk.injEq] at e
    obtain ⟨rfl, rfl⟩ := e
    exact ⟨lh, by simp [loadMems], Grow.refl hlen⟩
  | m :: r, vis, t, vis', hR, e, hp, rest, lh, hlen => by
    obtain ⟨⟨t1, v1⟩, hx, e⟩ := bind_ok e
    obtain ⟨⟨t2, v2⟩, hy, e⟩ := bind_ok e
    simp only [Out.ok.injEq, Prod.mk.injEq] at e
    obtain ⟨rfl, rfl⟩ := e
    obtain ⟨a1, _⟩ := items_ext hf (fun p hp => hR m (by simp) p hp) hx
    obtain ⟨b1, _⟩ := mems_ext hf (fun k hk p hp => hR k (by simp [hk]) p hp) hy
    obtain ⟨l1, c1, c2⟩ := items_load hf hl (fun p hp => hR m (by simp) p hp) hx
      (b1.prefix.trans hp) (t2 ++ rest) lh hlen
    obtain ⟨l2, d1, d2⟩ := mems_load hf hl (fun k hk p hp => hR k (by simp [hk]) p hp) hy hp rest l1
      c2.len
    refine ⟨l2, ?_, c2.trans a1.prefix b1.prefix d2⟩
    simp only [List.cons_append, loadMems, List.append_assoc, c1, Option.bind_some, d1,
      Option.map_some, Option.some.injEq, Prod.mk.injEq, and_true]
    funext k
    by_cases hk : k = m
    · subst hk; simp
    · simp [hk]

theorem obj_load {h : Heap} {d : Mem → List Item} {all : List Nat} (hall : all.Nodup) :
    ∀ n, LOk h (Reach h d) all (saveObj h n) (loadObj n)
  | 0 => fun p vis t vis' _ _ e _ => by simp [saveObj] at e
  | n + 1 => fun p vis t vis' hp hn e hpre => by
    simp only [saveObj] at e
    cases ho : h[p]? with
    | none => simp [ho] at e
    | some o =>
      simp only [ho] at e
      cases hs : serialize o.cls with
      | none => simp [hs] at e
      | some ms =>
        simp only [hs] at e
        obtain ⟨⟨t1, v1⟩, hx, e⟩ := bind_ok e
        simp only [Out.ok.injEq, Prod.mk.injEq] at e
        obtain ⟨rfl, rfl⟩ := e
        have hR : ∀ m ∈ ms, ∀ q, Item.ptr (some q) ∈ o.mem m → Reach h d q :=
          fun m hm q hq => Reach.step hp ho ((ser_mem hs m).1 hm).1 ((ser_mem hs m).1 hm).2 hq
        obtain ⟨a1, _⟩ := mems_ext (obj_ext n) hR hx
        refine ⟨o.cls, t1, rfl, fun rest lh hlen => ?_⟩
        obtain ⟨l1, c1, c2⟩ := mems_load (obj_ext n) (obj_load hall n) hR hx hpre rest (lh ++ [none])
          (by simp [hlen])
        have hidx : all.idxOf p = lh.length := by
          have h1 : (vis ++ [p]) <+: all := a1.prefix.trans hpre
          rw [← idx_pre h1 (by simp), List.idxOf_append_of_notMem hn]
          simp [hlen]
        refine ⟨_, by simp only [loadObj, hs, c1, Option.map_some, hidx]; rfl, ?_⟩
        have hl1 : lh.length < l1.length := by
          rw [c2.len, hlen]
          have := a1.prefix.length_le
          simp only [List.length_append, List.length_singleton] at this; omega
        refine ⟨by simp [c2.len], fun i hi => ?_, fun i hi q hq => ?_⟩
        · rw [List.getElem?_set_ne (by omega), c2.old i (by simp; omega),
            List.getElem?_append_left (by omega)]
        · by_cases hi' : i = lh.length
          · subst hi'
            rw [List.getElem?_set_self hl1]
            obtain ⟨w, hw⟩ := a1.prefix
            have hqp : q = p := by
              rw [← hw, hlen, List.append_assoc, List.getElem?_append_right (by omega)] at hq
              simp at hq; exact hq.symm
            subst hqp
            simp only [img, ho, hs, Option.getD_some]
          · rw [List.getElem?_set_ne (by omega)]
            exact c2.new i (by simp; omega) q hq

theorem finished_map : ∀ {l : LHeap}, (∀ x ∈ l, ∃ o, x = some o) → ∃ h, finished l = some h ∧
    h.length = l.length ∧ ∀ i : Nat, ∀ o, l[i]? = some (some o) → h[i]? = some o
  | [], _ => ⟨[], rfl, rfl, by simp⟩
  | none :: r, hx => by obtain ⟨o, ho⟩ := hx none (by simp); simp at ho
  | some o :: r, hx => by
    obtain ⟨h, h1, h2, h3⟩ := finished_map (l := r) (fun x hx' => hx x (by simp [hx']))
    refine ⟨o :: h, by simp [finished, h1], by simp [h2], ?_⟩
    intro i o' hi
    cases i with
    | zero => simpa using hi
    | succ i => simpa using h3 i o' (by simpa using hi)

/-- An object with its flag set if it must be. -/
def markIf (S : List Nat) (k : Nat) (o : Obj) : Obj := if k ∈ S then { o with db := true } else o

theorem markIf_mem (S : List Nat) (k : Nat) (o : Obj) : (markIf S k o).mem = o.mem := by
  unfold markIf; split <;> rfl

theorem markIf_cls (S : List Nat) (k : Nat) (o : Obj) : (markIf S k o).cls = o.cls := by
  unfold markIf; split <;> rfl

theorem mark_many (h : Heap) : ∀ (l S : List Nat) (x : Heap), x.length = h.length →
    (∀ i o, h[i]? = some o → x[i]? = some (markIf S i o)) →
    (l.foldl markOne x).length = h.length ∧
    ∀ i o, h[i]? = some o → (l.foldl markOne x)[i]? = some (markIf (S ++ l) i o)
  | [], S, x, hx, hi => by simpa using ⟨hx, hi⟩
  | p :: l, S, x, hx, hi => by
    have key : (markOne x p).length = h.length ∧
        ∀ i o, h[i]? = some o → (markOne x p)[i]? = some (markIf (S ++ [p]) i o) := by
      unfold markOne
      cases hp : x[p]? with
      | none =>
        refine ⟨hx, fun i o ho => ?_⟩
        have hne : i ≠ p := by
          rintro rfl
          rw [hi _ o ho] at hp; simp at hp
        rw [hi i o ho]; simp [markIf, hne]
      | some o' =>
        refine ⟨by simp [hx], fun i o ho => ?_⟩
        by_cases hne : i = p
        · subst hne
          rw [hi i o ho] at hp
          obtain rfl := Option.some.inj hp
          have hlt := (List.getElem?_eq_some_iff.1 ho).1
          rw [List.getElem?_set_self (by omega)]
          simp only [markIf, List.mem_append, List.mem_singleton, or_true, ↓reduceIte]
          split <;> rfl
        · dsimp only
          rw [List.getElem?_set_ne (fun e => hne e.symm), hi i o ho]; simp [markIf, hne]
    obtain ⟨a, b⟩ := mark_many h l (S ++ [p]) (markOne x p) key.1 key.2
    exact ⟨a, by simpa [List.append_assoc] using b⟩

/-- The addresses that are marked by a collection. -/
def listedBy (h : Heap) (c : Nat) : List Nat :=
  match h[c]? with
  | none => []
  | some o => walk (o.mem "collection")

theorem mark_colls (h : Heap) : ∀ (l S : List Nat) (x : Heap), x.length = h.length →
    (∀ i o, h[i]? = some o → x[i]? = some (markIf S i o)) →
    (l.foldl markAll x).length = h.length ∧
    ∀ i o, h[i]? = some o → (l.foldl markAll x)[i]? = some (markIf (S ++ l.flatMap (listedBy h)) i o)
  | [], S, x, hx, hi => by simpa using ⟨hx, hi⟩
  | c :: l, S, x, hx, hi => by
    have key : (markAll x c).length = h.length ∧
        ∀ i o, h[i]? = some o → (markAll x c)[i]? = some (markIf (S ++ listedBy h c) i o) := by
      unfold markAll
      cases hc : h[c]? with
      | none =>
        have h0 : x[c]? = none := by
          rw [List.getElem?_eq_none_iff] at hc ⊢; omega
        simpa [h0, listedBy, hc] using ⟨hx, hi⟩
      | some oc =>
        rw [hi c oc hc]
        dsimp only
        rw [markIf_mem]
        have := mark_many h (walk (oc.mem "collection")) S x hx hi
        simpa [listedBy, hc] using this
    obtain ⟨a, b⟩ := mark_colls h l (S ++ listedBy h c) (markAll x c) key.1 key.2
    exact ⟨a, by simpa [List.append_assoc] using b⟩

theorem setDatabase_spec (h : Heap) (d : Mem → List Item) :
    (setDatabase h d).length = h.length ∧ ∀ i o, h[i]? = some o →
      (setDatabase h d)[i]? = some (markIf ((walk (d "collection")).flatMap (listedBy h)) i o) := by
  have := mark_colls h (walk (d "collection")) [] h rfl (fun i o ho => by simp [markIf, ho])
  simpa [setDatabase] using this

/-- The object that is read for an object, before the definitions are told their database. -/
def again (vis : List Nat) (o : Obj) : Obj :=
  ⟨o.cls, fun m => if m ∈ members o.cls ∧ m ∉ lost o.cls then
    (o.mem m).map (Item.via vis.idxOf) else [], false⟩

/-- What `Load` makes of what `Save` wrote. -/
theorem read_back {h : Heap} {d : Db} {n : Nat} {t : List Tok} {vis : List Nat}
    (e : saveMems (saveObj h n) d.mem serDatabase [] = .ok (t, vis)) :
    ∃ h0 : Heap, h0.length = vis.length ∧
      (∀ (i p : Nat) (o : Obj), vis[i]? = some p → h[p]? = some o →
        h0[i]? = some (again vis o)) ∧
      readDb n (.atom (toInt current) :: t) =
        some (setDatabase h0 (fun m => if m ∈ dbMembers then (d.mem m).map (Item.via vis.idxOf) else []),
          ⟨fun m => if m ∈ dbMembers then (d.mem m).map (Item.via vis.idxOf) else [], current⟩) := by
  obtain ⟨m1, m2, m3⟩ := met e
  obtain ⟨lh, l1, l2⟩ := mems_load (obj_ext n) (obj_load (d := d.mem) m1 n)
    (fun m hm p hp => Reach.root ((db_mem m).1 hm) hp) e List.prefix_rfl [] [] rfl
  have himg : ∀ (i p : Nat) (o : Obj), vis[i]? = some p → h[p]? = some o →
      lh[i]? = some (some (again vis o)) := by
    intro i p o hi ho
    rw [l2.new i (by simp) p hi]
    obtain ⟨o', ms, h1, h2, _⟩ := m3 p (List.mem_of_getElem? hi)
    rw [ho] at h1
    obtain rfl := Option.some.inj h1
    simp only [img, again, ho, h2, Option.getD_some, Option.some.injEq, Obj.mk.injEq, and_true, true_and]
    funext m
    exact if_congr (ser_mem h2 m) rfl rfl
  obtain ⟨h0, f1, f2, f3⟩ := finished_map (l := lh) (fun x hx => by
    obtain ⟨i, hi⟩ := List.getElem?_of_mem hx
    have hlt := (List.getElem?_eq_some_iff.1 hi).1
    rw [l2.len] at hlt
    obtain ⟨o, ms, h1, _⟩ := m3 vis[i] (List.getElem_mem hlt)
    have := himg i vis[i] o (List.getElem?_eq_getElem hlt) h1
    rw [hi] at this
    exact ⟨_, Option.some.inj this⟩)
  refine ⟨h0, by rw [f2, l2.len], fun i p o hi ho => f3 i _ (himg i p o hi ho), ?_⟩
  rw [List.append_nil] at l1
  have hfun : (fun m => if m ∈ serDatabase then (d.mem m).map (Item.via vis.idxOf) else []) =
      (fun m => if m ∈ dbMembers then (d.mem m).map (Item.via vis.idxOf) else []) :=
    funext fun m => if_congr (db_mem m) rfl rfl
  rw [hfun] at l1
  simp only [readDb, l1, Option.bind_some, f1, Option.map_some]
  rfl

theorem save_ok {room : Nat} {h : Heap} {d : Db} {f f' : Path}
    (e : save room h d f = (.ok true, f')) :
    ∃ t vis, saveMems (saveObj h room) d.mem serDatabase [] = .ok (t, vis) ∧
      f'.content = .archive (.atom (toInt current) :: t) := by
  unfold save at e
  by_cases h1 : f.dir <;> by_cases h2 : f.writable <;> simp [h1, h2] at e
  cases hs : saveMems (saveObj h room) d.mem serDatabase [] with
  | ok x => simp only [hs, Prod.mk.injEq] at e; exact ⟨x.1, x.2, rfl, by rw [← e.2]⟩
  | _ => simp [hs] at e

theorem mem_walk {l : List Item} (hn : .ptr none ∉ l) (p : Nat) :
    p ∈ walk l ↔ .ptr (some p) ∈ l := by
  induction l with
  | nil => simp [walk]
  | cons i r ih =>
    have ih := ih (fun x => hn (by simp [x]))
    match i with
    | .atom v => simp [walk, ih]
    | .ptr none => simp at hn
    | .ptr (some q) => simp [walk, ih]

theorem mem_via {g : Nat → Nat} {l : List Item} {k : Nat} :
    .ptr (some k) ∈ l.map (Item.via g) ↔ ∃ p, .ptr (some p) ∈ l ∧ g p = k := by
  simp only [List.mem_map]
  constructor
  · rintro ⟨i, hi, e⟩
    match i with
    | .atom v => simp [Item.via] at e
    | .ptr none => simp [Item.via] at e
    | .ptr (some p) => exact ⟨p, hi, by simpa [Item.via] using e⟩
  · rintro ⟨p, hp, rfl⟩
    exact ⟨_, hp, rfl⟩

theorem null_via {g : Nat → Nat} {l : List Item} (h : .ptr none ∉ l) :
    .ptr none ∉ l.map (Item.via g) := by
  simp only [List.mem_map, not_exists, not_and]
  intro i hi e
  match i with
  | .atom v => simp [Item.via] at e
  | .ptr none => exact h hi
  | .ptr (some p) => simp [Item.via] at e

/-- The objects that the collections of definitions of a database list. -/
def Listed (h : Heap) (d : Mem → List Item) (p : Nat) : Prop :=
  ∃ c oc, .ptr (some c) ∈ d "collection" ∧ h[c]? = some oc ∧ .ptr (some p) ∈ oc.mem "collection"

/-- The collections of a database are collections, and there are no null pointers in them. -/
def GoodLists (h : Heap) (d : Mem → List Item) : Prop :=
  .ptr none ∉ d "collection" ∧ ∀ c oc, .ptr (some c) ∈ d "collection" → h[c]? = some oc →
    .ptr none ∉ oc.mem "collection" ∧ "collection" ∈ members oc.cls

theorem coll_kept (c : Cls) : "collection" ∉ lost c := by cases c <;> decide

/-- Everything about a round trip. -/
theorem round {room : Nat} {h : Heap} {d : Db} {f f' : Path}
    (e : save room h d f = (.ok true, f')) :
    Sound h d.mem ∧ ∃ h' d' g, load room f' = .ok h' d' ∧ CopyOf h d.mem h' d'.mem g ∧
      d'.version = current ∧
      (GoodLists h d.mem → ∀ p o', Reach h d.mem p → h'[g p]? = some o' →
        (o'.db = true ↔ Listed h d.mem p)) := by
  obtain ⟨t, vis, e1, e2⟩ := save_ok e
  obtain ⟨m1, m2, m3⟩ := met e1
  obtain ⟨h0, r1, r2, r3⟩ := read_back e1
  have hs : Sound h d.mem := fun p hp => by
    obtain ⟨o, _, ho, _⟩ := m3 p ((m2 p).2 hp); exact ⟨o, ho⟩
  obtain ⟨s1, s2⟩ := setDatabase_spec h0
    (fun m => if m ∈ dbMembers then (d.mem m).map (Item.via vis.idxOf) else [])
  have hget : ∀ p, Reach h d.mem p → vis[vis.idxOf p]? = some p := fun p hp => by
    have := List.idxOf_lt_length_iff.2 ((m2 p).2 hp)
    rw [List.getElem?_eq_getElem this, List.getElem_idxOf]
  have hobj : ∀ p o, Reach h d.mem p → h[p]? = some o → h0[vis.idxOf p]? = some (again vis o) :=
    fun p o hp ho => r2 _ p o (hget p hp) ho
  have hinj : ∀ p q, Reach h d.mem p → Reach h d.mem q → vis.idxOf p = vis.idxOf q → p = q := by
    intro p q hp hq he
    have h1 := hget p hp
    rw [he, hget q hq] at h1
    exact (Option.some.inj h1).symm
  refine ⟨hs, _, _, vis.idxOf, by simp only [load, e2, r3]; rfl, ⟨?_, ?_, hinj, ?_⟩, rfl, ?_⟩
  · intro m hm
    exact if_pos hm
  · intro p o hp ho
    refine ⟨_, s2 _ _ (hobj p o hp ho), by rw [markIf_cls]; rfl, ?_⟩
    intro m hm
    rw [markIf_mem]
    simp only [again, hm, true_and]
    by_cases hl : m ∈ lost o.cls <;> simp [hl]
  · intro k hk
    rw [s1, r1] at hk
    exact ⟨vis[k], (m2 _).1 (List.getElem_mem hk), m1.idxOf_getElem k hk⟩
  · rintro ⟨n1, n2⟩ p o' hp ho'
    obtain ⟨o, ho⟩ := hs p hp
    rw [s2 _ _ (hobj p o hp ho)] at ho'
    obtain rfl := Option.some.inj ho'
    have hdb : ∀ S, (markIf S (vis.idxOf p) (again vis o)).db = true ↔ vis.idxOf p ∈ S := by
      intro S; unfold markIf; by_cases hS : vis.idxOf p ∈ S <;> simp [hS, again]
    have hcm : "collection" ∈ dbMembers := by decide
    rw [hdb, List.mem_flatMap, if_pos hcm]
    constructor
    · rintro ⟨k, hk, hk'⟩
      rw [mem_walk (null_via n1), mem_via] at hk
      obtain ⟨c, hc, rfl⟩ := hk
      have hcr : Reach h d.mem c := Reach.root hcm hc
      obtain ⟨oc, hoc⟩ := hs c hcr
      obtain ⟨n3, n4⟩ := n2 c oc hc hoc
      simp only [listedBy, hobj c oc hcr hoc, again, n4, coll_kept, not_false_eq_true, and_self,
        ↓reduceIte] at hk'
      rw [mem_walk (null_via n3), mem_via] at hk'
      obtain ⟨q, hq, hq'⟩ := hk'
      have hqr : Reach h d.mem q := Reach.step hcr hoc n4 (coll_kept _) hq
      exact ⟨c, oc, hc, hoc, hinj q p hqr hp hq' ▸ hq⟩
    · rintro ⟨c, oc, hc, hoc, hq⟩
      have hcr : Reach h d.mem c := Reach.root hcm hc
      obtain ⟨n3, n4⟩ := n2 c oc hc hoc
      refine ⟨vis.idxOf c, by rw [mem_walk (null_via n1), mem_via]; exact ⟨c, hc, rfl⟩, ?_⟩
      simp only [listedBy, hobj c oc hcr hoc, again, n4, coll_kept, not_false_eq_true, and_self,
        ↓reduceIte]
      rw [mem_walk (null_via n3), mem_via]
      exact ⟨p, hq, rfl⟩

/-! ### Theorems -/

/-- **C120**: which members come back.  For every class that can be saved the archive names exactly
the declared members that are not in the table `lost`; the only class that cannot be saved is the
grid thermal model. -/
theorem c120_members (c : Cls) :
    (serialize c = none ↔ c = .EGridThermalModel) ∧
    ∀ ms, serialize c = some ms → ms.Nodup ∧ ∀ m, m ∈ ms ↔ m ∈ members c ∧ m ∉ lost c :=
  ⟨ser_none c, fun _ h => ⟨ser_nodup h, ser_mem h⟩⟩

/-- **C120**: a database without dangling pointers is saved if no grid thermal model is in it.
Otherwise an exception leaves the function and what the file held before is gone. -/
theorem c120_save {room : Nat} {h : Heap} {d : Db} {f : Path} (hs : Sound h d.mem)
    (hr : h.length ≤ room) (hd : f.dir = true) (hw : f.writable = true) :
    (¬ HasGrid h d.mem → ∃ t, save room h d f = (.ok true, { f with content := .archive t })) ∧
    (HasGrid h d.mem → save room h d f = (.exn, { f with content := .broken })) := by
  rcases write_iff hs hr with ⟨hg, e⟩ | ⟨hg, x, e⟩
  · exact ⟨fun n => absurd hg n, fun _ => by simp [save, hd, hw, e]⟩
  · exact ⟨fun _ => ⟨_, by simp only [save, hd, hw, e]; rfl⟩, fun n => absurd n hg⟩

/-- **C120**: what is loaded is a copy of what was saved but for the members of `lost`: the same
objects of the same classes, pointing to each other in the same way, sharing included, and nothing
else.  What is missing from the full claim is `c120_layout_refuted`, `c120_grid_refuted` and
`c120_transform_refuted`. -/
theorem c120_roundtrip_partial {room : Nat} {h : Heap} {d : Db} {f f' : Path}
    (e : save room h d f = (.ok true, f')) :
    ∃ h' d' g, load room f' = .ok h' d' ∧ CopyOf h d.mem h' d'.mem g := by
  obtain ⟨_, h', d', g, h1, h2, _⟩ := round e
  exact ⟨h', d', g, h1, h2⟩

/-- **C120**: the whole database comes back exactly when every lost member was empty. -/
theorem c120_same_iff {room : Nat} {h : Heap} {d : Db} {f f' : Path}
    (e : save room h d f = (.ok true, f')) {h' : Heap} {d' : Db} (l : load room f' = .ok h' d') :
    (∃ g, Same h d.mem h' d'.mem g) ↔ ∀ p o, Reach h d.mem p → h[p]? = some o →
      ∀ m ∈ members o.cls, m ∈ lost o.cls → o.mem m = [] := by
  obtain ⟨hs, h1, d1, g, h2, c, _⟩ := round e
  rw [l] at h2
  obtain ⟨rfl, rfl⟩ := Loaded.ok.inj h2
  constructor
  · rintro ⟨g', s⟩ p o hp ho m hm hl
    obtain ⟨o', a1, a2, a3⟩ := s.objs p o hp ho
    obtain ⟨q, b1, b2⟩ := c.onto (g' p) (List.getElem?_eq_some_iff.1 a1).1
    obtain ⟨oq, b3⟩ := hs q b1
    obtain ⟨o2, c1, c2, c3⟩ := c.objs q oq b1 b3
    rw [b2, a1] at c1
    obtain rfl := Option.some.inj c1
    rw [← c2, a2] at c3
    have h5 := c3 m hm
    rw [if_pos hl, a3 m hm] at h5
    exact List.map_eq_nil_iff.1 h5
  · intro hyp
    refine ⟨g, c.top, fun p o hp ho => ?_, c.inj, c.onto⟩
    obtain ⟨o', a1, a2, a3⟩ := c.objs p o hp ho
    refine ⟨o', a1, a2, fun m hm => ?_⟩
    rw [a3 m hm]
    by_cases hl : m ∈ lost o.cls
    · rw [if_pos hl, hyp p o hp ho m hm hl]; rfl
    · rw [if_neg hl]

/-- **C120** fails: a database with a layout that has a name (and every circuit cell makes its layout
with the name of the cell, src/design/ECell.cpp:99-104) is never loaded as it was saved. -/
theorem c120_layout_refuted {room : Nat} {h : Heap} {d : Db} {f f' : Path}
    (e : save room h d f = (.ok true, f')) {h' : Heap} {d' : Db} (l : load room f' = .ok h' d')
    {p : Nat} {o : Obj} (hp : Reach h d.mem p) (ho : h[p]? = some o) (hc : o.cls = .ELayoutView)
    (hn : o.mem "name" ≠ []) : ¬ ∃ g, Same h d.mem h' d'.mem g := by
  rw [c120_same_iff e l]
  intro hyp
  refine hn (hyp p o hp ho "name" ?_ ?_) <;> rw [hc] <;> decide

/-- **C120** fails: a database with a grid thermal model is not saved, and the file that was there is
no archive any more. -/
theorem c120_grid_refuted {room : Nat} {h : Heap} {d : Db} {f : Path} (hs : Sound h d.mem)
    (hr : h.length ≤ room) (hd : f.dir = true) (hw : f.writable = true) (hg : HasGrid h d.mem) :
    (save room h d f).1 = .exn ∧ load room (save room h d f).2 = .exn := by
  rw [(c120_save hs hr hd hw).2 hg]
  exact ⟨rfl, rfl⟩

/-- **C120**: of the loaded objects, those know the database that a collection of the database
lists; the version is the one of the program. -/
theorem c120_database {room : Nat} {h : Heap} {d : Db} {f f' : Path}
    (e : save room h d f = (.ok true, f')) (hg : GoodLists h d.mem) :
    ∃ h' d' g, load room f' = .ok h' d' ∧ CopyOf h d.mem h' d'.mem g ∧ d'.version = (0, 0) ∧
      ∀ p o', Reach h d.mem p → h'[g p]? = some o' → (o'.db = true ↔ Listed h d.mem p) := by
  obtain ⟨_, h', d', g, h1, h2, h3, h4⟩ := round e
  exact ⟨h', d', g, h1, h2, h3, h4 hg⟩

/-- **C120**: saving and loading once more changes nothing more. -/
theorem c120_stable {room : Nat} {h : Heap} {d : Db} {f f' f2 : Path}
    (e : save room h d f = (.ok true, f')) {h' : Heap} {d' : Db} (l : load room f' = .ok h' d')
    {room2 : Nat} (hr : h'.length ≤ room2) (hd : f2.dir = true) (hw : f2.writable = true) :
    ∃ f2' h2 d2 g, save room2 h' d' f2 = (.ok true, f2') ∧ load room2 f2' = .ok h2 d2 ∧
      Same h' d'.mem h2 d2.mem g := by
  obtain ⟨hs, h1, d1, g, h2, c, _⟩ := round e
  rw [l] at h2
  obtain ⟨rfl, rfl⟩ := Loaded.ok.inj h2
  have back : ∀ k, Reach h' d'.mem k → ∃ p o o', Reach h d.mem p ∧ g p = k ∧ h[p]? = some o ∧
      h'[k]? = some o' ∧ o'.cls = o.cls ∧ ∀ m ∈ members o.cls, o'.mem m =
        if m ∈ lost o.cls then [] else (o.mem m).map (Item.via g) := by
    have full : ∀ p, Reach h d.mem p → ∃ p' o o', Reach h d.mem p' ∧ g p' = g p ∧ h[p']? = some o ∧
      h'[g p]? = some o' ∧ o'.cls = o.cls ∧ ∀ m ∈ members o.cls, o'.mem m =
        if m ∈ lost o.cls then [] else (o.mem m).map (Item.via g) := by
      intro p hp
      obtain ⟨o, ho⟩ := hs p hp
      obtain ⟨o', a1, a2, a3⟩ := c.objs p o hp ho
      exact ⟨p, o, o', hp, rfl, ho, a1, a2, a3⟩
    intro k hk
    induction hk with
    | @root m k hm hp =>
      rw [c.top m hm, mem_via] at hp
      obtain ⟨p, hp, rfl⟩ := hp
      exact full p (Reach.root hm hp)
    | @step k q o2 m _ ho hm hl hq ih =>
      obtain ⟨p, o, o', a1, _, a3, a4, a5, a6⟩ := ih
      rw [ho] at a4
      obtain rfl := Option.some.inj a4
      rw [a5] at hm hl
      rw [a6 m hm, if_neg hl, mem_via] at hq
      obtain ⟨r, hr, rfl⟩ := hq
      exact full r (Reach.step a1 a3 hm hl hr)
  have hs' : Sound h' d'.mem := fun k hk => by
    obtain ⟨_, _, o', _, _, _, ho', _⟩ := back k hk
    exact ⟨o', ho'⟩
  have hng : ¬ HasGrid h' d'.mem := by
    rintro ⟨k, o, hk, ho, hc⟩
    obtain ⟨p, op, o', a1, _, a3, a4, a5, _⟩ := back k hk
    rw [ho] at a4
    obtain rfl := Option.some.inj a4
    obtain ⟨t, vis, e1, _⟩ := save_ok e
    obtain ⟨_, m2, m3⟩ := met e1
    obtain ⟨o3, ms, b1, b2, _⟩ := m3 p ((m2 p).2 a1)
    rw [a3] at b1
    obtain rfl := Option.some.inj b1
    rw [← a5, (ser_none _).2 hc] at b2
    simp at b2
  obtain ⟨t, et⟩ := (c120_save hs' hr hd hw).1 hng
  obtain ⟨h2, d2, g2, l2, _⟩ := c120_roundtrip_partial et
  obtain ⟨g3, s⟩ := (c120_same_iff et l2).2 (fun k o hk ho m hm hl => by
    obtain ⟨p, op, o', a1, _, a3, a4, a5, a6⟩ := back k hk
    rw [ho] at a4
    obtain rfl := Option.some.inj a4
    rw [a5] at hm hl
    rw [a6 m hm, if_pos hl])
  exact ⟨_, h2, d2, g3, et, l2, s⟩

/-- **C120**: a saved database is entered in the table of databases under its old name, unless there
is one of that name already. -/
theorem c120_registered {room : Nat} {h : Heap} {d : Db} {f f' : Path}
    (e : save room h d f = (.ok true, f')) (ha : ∀ i ∈ d.mem "name", ∃ v, i = .atom v)
    (names : List (List Item)) :
    (d.mem "name" ∈ names → loadDatabase room names f' = (names, .no)) ∧
    (d.mem "name" ∉ names → ∃ h' d', load room f' = .ok h' d' ∧
      loadDatabase room names f' = (d.mem "name" :: names, .ok h' d')) := by
  obtain ⟨h', d', g, l, c⟩ := c120_roundtrip_partial e
  have hn : d'.mem "name" = d.mem "name" := by
    rw [c.top "name" (by decide)]
    rw [List.map_congr_left (g := id), List.map_id]
    intro i hi
    obtain ⟨v, rfl⟩ := ha i hi
    rfl
  constructor
  · intro hm
    simp [loadDatabase, l, hn, hm]
  · intro hm
    exact ⟨h', d', l, by simp [loadDatabase, l, hn, hm]⟩

/-- **C120**: a file that cannot be written is left as it was, and no file is read as an archive that
is none. -/
theorem c120_files {room : Nat} {h : Heap} {d : Db} {f : Path} :
    (f.dir = false ∨ f.writable = false → save room h d f = (.ok false, f)) ∧
    (∀ h' d', load room f = .ok h' d' → ∃ t, f.content = .archive t) := by
  constructor
  · rintro (h1 | h1)
    · simp [save, h1]
    · by_cases h2 : f.dir <;> simp [save, h1, h2]
  · intro h' d' l
    unfold load at l
    cases hc : f.content <;> simp [hc] at l ⊢

section
variable {F M : Type} [Zero F] [One F] [DecidableEq F] [Trans.Kit F M]

/-- **C120**: a transformation means after loading what its sequence says.  That is what it meant
before exactly when no matrix was computed, or the computed one is that of the sequence. -/
theorem c120_transform (t : Trans.T F M) :
    (reloadT t).get.2 = Trans.product M t.seq ∧
    ((reloadT t).get.2 = t.get.2 ↔ t.cache = none ∨ t.cache = some (Trans.product M t.seq)) := by
  refine ⟨rfl, ?_⟩
  rcases t with ⟨_ | m, s⟩
  · simp [reloadT, Trans.T.get]
  · simp [reloadT, Trans.T.get, eq_comm]

/-- **C120** fails: what was appended to a transformation that had been read is not saved. -/
theorem c120_transform_refuted (t u : Trans.T F M) (hc : t.cache = none)
    (hu : u.get.2 * Trans.product M t.seq ≠ Trans.product M t.seq) :
    ((t.get.1).append u).1.get.2 = u.get.2 * Trans.product M t.seq ∧
    (reloadT ((t.get.1).append u).1).get.2 = Trans.product M t.seq ∧
    (reloadT ((t.get.1).append u).1).get.2 ≠ ((t.get.1).append u).1.get.2 := by
  have h1 : ((t.get.1).append u).1 =
      ⟨some (u.get.2 * Trans.product M t.seq), t.seq⟩ := by
    simp [Trans.T.get, hc, Trans.T.append]
  rw [h1]
  exact ⟨rfl, rfl, fun e => hu e.symm⟩

end

/-! ### Examples -/

/-- Members of an object given as a table. -/
def tab (l : List (Mem × List Item)) (m : Mem) : List Item := (l.lookup m).getD []

/-- A database with a cell, its layout, and a net that two lists share. -/
def exHeap : Heap := [
  ⟨.ECellCollection, tab [("collection", [.ptr (some 1)])], false⟩,
  ⟨.ECircuitCell, tab [("name", [.atom 7]), ("uuid", [.atom 1]), ("cell_type", [.atom 0]),
    ("layout_view", [.ptr (some 2)])], true⟩,
  ⟨.ELayoutView, tab [("name", [.atom 7]), ("uuid", [.atom 2]), ("collection", [.ptr (some 3)]),
    ("cell", [.ptr (some 1)]), ("boundary", [.ptr none])], false⟩,
  ⟨.ENetCollection, tab [("collection", []), ("uid_gen", [.atom 5])], false⟩]

def exDb : Db :=
  ⟨tab [("name", [.atom 3]), ("uuid", [.atom 9]), ("coord_units", [.atom 1]),
    ("collection", [.ptr (some 0)])], (0, 0)⟩

def exPath : Path := ⟨true, true, .absent⟩

example : (save 4 exHeap exDb exPath).1 = .ok true := by decide +kernel

example : Reach exHeap exDb.mem 2 ∧ (∃ o, exHeap[2]? = some o ∧ o.cls = .ELayoutView ∧
    o.mem "name" ≠ []) :=
  ⟨.step (o := exHeap[1]) (p := 1) (m := "layout_view")
    (.step (o := exHeap[0]) (p := 0) (m := "collection") (.root (m := "collection")
    (by decide) (by decide)) rfl (by decide) (by decide) (by decide)) rfl (by decide) (by decide)
    (by decide), _, rfl, rfl, by decide⟩

/-- The archive of the example is read as the four objects, the third without its name. -/
example : ∃ h d, load 4 (save 4 exHeap exDb exPath).2 = .ok h d ∧
    h.map (fun o => (o.cls, o.mem "name", o.mem "cell", o.db)) =
        [(.ECellCollection, [], [], false), (.ECircuitCell, [.atom 7], [], true),
          (.ELayoutView, [], [.ptr (some 1)], false), (.ENetCollection, [], [], false)] ∧
    d.mem "name" = [.atom 3] := by
  refine ⟨_, _, rfl, ?_, ?_⟩ <;> decide +kernel

/-- A database with a grid thermal model. -/
def exGrid : Heap := [⟨.EModelCollection, tab [("collection", [.ptr (some 1)])], false⟩,
  ⟨.EGridThermalModel, tab [], false⟩]

example : Sound exGrid exDb.mem ∧ HasGrid exGrid exDb.mem := by
  have r0 : Reach exGrid exDb.mem 0 := .root (m := "collection") (by decide) (by decide)
  refine ⟨?_, 1, _, .step (o := exGrid[0]) (m := "collection") r0 rfl (by decide) (by decide)
    (by decide), rfl, rfl⟩
  have key : ∀ p, Reach exGrid exDb.mem p → p = 0 ∨ p = 1 := by
    intro p hp
    induction hp with
    | root hm hp =>
      simp only [dbMembers, List.mem_cons, List.not_mem_nil, or_false] at hm
      rcases hm with rfl | rfl | rfl | rfl <;> simp [exDb, tab, List.lookup] at hp
      exact Or.inl hp
    | step _ ho hm _ hq ih =>
      rcases ih with rfl | rfl <;> simp [exGrid] at ho <;> subst ho
      · simp only [members, List.mem_singleton] at hm
        subst hm
        simp [tab, List.lookup] at hq
        exact Or.inr hq
      · simp [tab, List.lookup] at hq
  intro p hp
  rcases key p hp with rfl | rfl <;> exact ⟨_, rfl⟩

example : (save 2 exGrid exDb exPath).1 = .exn := by decide +kernel

/-- Shifts of the line. -/
local instance exKit : Trans.Kit ℤ (Function.End ℤ) where
  scaleT s := fun x => s * x
  rotateT _ := fun x => x
  mirrorT _ := fun x => -x
  shiftT v := fun x => v.1 + x

/-- A shift that is appended after the transformation was read is lost. -/
example : let u : Trans.T ℤ (Function.End ℤ) := ⟨none, [⟨1, 0, none, (5, 0)⟩]⟩
    let t : Trans.T ℤ (Function.End ℤ) := Trans.T.new ℤ _
    t.cache = none ∧ u.get.2 * Trans.product (Function.End ℤ) t.seq ≠
      Trans.product (Function.End ℤ) t.seq := by
  refine ⟨rfl, fun e => ?_⟩
  have := congrFun e 0
  revert this
  decide +kernel

end Ecad.Arc
