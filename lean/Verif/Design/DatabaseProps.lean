import Verif.Design.DatabaseModel
import Verif.Naming.Lemmas
import Mathlib.Data.List.Range
/-!
C91 and C92: definitions of a database by name, materials by id.
-/
namespace Ecad.Db

/-! ### Specification -/

/-- How many databases a history (newest call first) has made. -/
def numDbs : List Op → Nat
  | [] => 0
  | .new :: p => numDbs p + 1
  | .copy i :: p => if i < numDbs p then numDbs p + 1 else numDbs p
  | _ :: p => numDbs p

/-- Whether after a history (newest call first) database `i` should have a definition of kind `k`
named `n`. -/
def Has : List Op → Nat → Kind → String → Prop
  | [], _, _, _ => False
  | .new :: p, i, k, n => Has p i k n
  | .create i' k' n' :: p, i, k, n => Has p i k n ∨ (i = i' ∧ k = k' ∧ n = n' ∧ i < numDbs p)
  | .addMap i' n' _ :: p, i, k, n =>
    Has p i k n ∨ (i = i' ∧ k = .layerMap ∧ n = n' ∧ i < numDbs p)
  | .copy i' :: p, i, k, n =>
    if i = numDbs p then i' < numDbs p ∧ Has p i' k n else Has p i k n
  | .assign i' j' :: p, i, k, n =>
    if i = i' ∧ i < numDbs p ∧ j' < numDbs p then Has p j' k n else Has p i k n
  | .clear i' :: p, i, k, n => i ≠ i' ∧ Has p i k n

/-- The calls a program may make without assigning a database to itself. -/
def NoSelf (ops : List Op) : Prop := ∀ i, Op.assign i i ∉ ops

/-! ### Shape of databases -/

/-- The five collections of a database, in the order in which they were added. -/
def kinds : List Kind := [.componentDef, .padstackDef, .materialDef, .layerMap, .cell]

/-- A database with all its collections, in which each definition is filed under its kind and
name. -/
structure Good (d : Database) : Prop where
  keys : UMap.keys d.colls = kinds
  wf : ∀ k c, (k, c) ∈ d.colls → UMap.WF c.defs
  filed : ∀ k c, (k, c) ∈ d.colls → ∀ n x, (n, x) ∈ c.defs → x.name = n ∧ x.kind = k

theorem find?_map_val {K V W : Type _} [DecidableEq K] (m : List (K × V)) (f : K → V → W) (k : K) :
    UMap.find? (m.map (fun e => (e.1, f e.1 e.2))) k = (UMap.find? m k).map (f k) := by
  induction m with
  | nil => rfl
  | cons e m ih =>
    rw [List.map_cons, UMap.find?_cons, UMap.find?_cons, ih]
    by_cases h : e.1 = k
    · subst h; simp
    · simp [h]

theorem keys_map_val {K V W : Type _} (m : List (K × V)) (f : K → V → W) :
    UMap.keys (m.map (fun e => (e.1, f e.1 e.2))) = UMap.keys m := by
  simp [UMap.keys]

theorem Good.coll {d : Database} (h : Good d) (k : Kind) : ∃ c, getColl d k = some c := by
  have hk : k ∈ UMap.keys d.colls := by rw [h.keys]; cases k <;> simp [kinds]
  have := (UMap.find?_isSome_iff d.colls k).2 hk
  exact Option.isSome_iff_exists.1 this

theorem Good.collWF {d : Database} (h : Good d) {k : Kind} {c : Coll} (hc : getColl d k = some c) :
    UMap.WF c.defs := h.wf k c (UMap.find?_mem hc)

theorem Good.found {d : Database} (h : Good d) {k : Kind} {n : String} {x : Defn}
    (hx : findByName d k n = some x) : x.name = n ∧ x.kind = k := by
  unfold findByName getDefinition at hx
  obtain ⟨c, hc⟩ := h.coll k
  rw [hc] at hx
  exact h.filed k c (UMap.find?_mem hc) n x (UMap.find?_mem hx)

theorem good_new (s : Nat) : Good (new s) := by
  have hc : (new s).colls = [(.componentDef, ⟨[], []⟩), (.padstackDef, ⟨[], []⟩),
      (.materialDef, ⟨[], []⟩), (.layerMap, ⟨[], []⟩), (.cell, ⟨[], []⟩)] := rfl
  refine ⟨by rw [hc]; rfl, ?_, ?_⟩
  · intro k c h
    rw [hc] at h
    simp only [List.mem_cons, Prod.mk.injEq, List.not_mem_nil, or_false] at h
    have : c = ⟨[], []⟩ := by rcases h with h | h | h | h | h <;> exact h.2
    rw [this]; exact UMap.WF_nil
  · intro k c h n x hx
    rw [hc] at h
    simp only [List.mem_cons, Prod.mk.injEq, List.not_mem_nil, or_false] at h
    have : c = ⟨[], []⟩ := by rcases h with h | h | h | h | h <;> exact h.2
    rw [this] at hx; simp at hx

theorem find_new (s : Nat) (k : Kind) (n : String) : findByName (new s) k n = none := by
  cases k <;> rfl

/-- Collections after one of them is replaced. -/
theorem getColl_setColl {d : Database} {k : Kind} {c0 : Coll} (c : Coll)
    (h : getColl d k = some c0) (k' : Kind) :
    getColl (setColl d k c) k' = if k' = k then some c else getColl d k' := by
  unfold getColl setColl at *
  simp only
  rw [find?_map_val d.colls (fun q v => if q = k then c else v) k']
  by_cases hk : k' = k
  · subst hk; simp [h]
  · simp [hk]

theorem find_addDefinition {d : Database} (hg : Good d) (n : String) (x : Defn)
    (hn : findByName d x.kind n = none) (k' : Kind) (n' : String) :
    findByName (addDefinition d n x).1 k' n' =
      if k' = x.kind ∧ n' = n then some x else findByName d k' n' := by
  obtain ⟨c, hc⟩ := hg.coll x.kind
  have hnc : UMap.find? c.defs n = none := by
    unfold findByName getDefinition at hn; rw [hc] at hn; exact hn
  unfold addDefinition
  rw [hc]
  simp only [findByName, getDefinition]
  rw [getColl_setColl _ hc]
  by_cases hk : k' = x.kind
  · subst hk
    simp only [if_true, Coll.add, hc, true_and]
    rw [UMap.find?_emplace']
    simp [hnc]
  · simp [hk]

theorem ret_addDefinition {d : Database} (hg : Good d) (n : String) (x : Defn)
    (hn : findByName d x.kind n = none) : (addDefinition d n x).2 = some x := by
  have h := find_addDefinition hg n x hn x.kind n
  simp only [and_self, if_true] at h
  obtain ⟨c, hc⟩ := hg.coll x.kind
  unfold addDefinition at h ⊢
  rw [hc] at h ⊢
  exact h

theorem good_addDefinition {d : Database} (hg : Good d) (n : String) (x : Defn) (hx : x.name = n) :
    Good (addDefinition d n x).1 := by
  obtain ⟨c, hc⟩ := hg.coll x.kind
  have hm := UMap.find?_mem hc
  unfold addDefinition
  rw [hc]
  refine ⟨?_, ?_, ?_⟩
  · simp only [setColl]
    rw [keys_map_val d.colls (fun q v => if q = x.kind then c.add n x else v)]
    exact hg.keys
  · intro k c' h
    simp only [setColl, List.mem_map, Prod.mk.injEq] at h
    obtain ⟨e, he, rfl, rfl⟩ := h
    split
    · exact UMap.WF_emplace (hg.wf _ c hm) _ _
    · exact hg.wf _ _ he
  · intro k c' h n' y hy
    simp only [setColl, List.mem_map, Prod.mk.injEq] at h
    obtain ⟨e, he, rfl, rfl⟩ := h
    split at hy
    · rename_i hk
      simp only [Coll.add, UMap.emplace] at hy
      split at hy
      · rw [hk]; exact hg.filed _ c hm n' y hy
      · rcases List.mem_append.1 hy with hy | hy
        · rw [hk]; exact hg.filed _ c hm n' y hy
        · simp only [List.mem_singleton, Prod.mk.injEq] at hy
          rw [hy.1, hy.2, hk]; exact ⟨hx, rfl⟩
    · exact hg.filed _ _ he n' y hy

theorem nextMatId_ok {d : Database} (hg : Good d) (k : Kind) : ∃ id, nextMatId d k = .ok id := by
  unfold nextMatId
  split
  · obtain ⟨c, hc⟩ := hg.coll k
    rw [hc]; exact ⟨_, rfl⟩
  · exact ⟨_, rfl⟩

/-! ### C91 -/

/-- Creating a definition in a database: fails exactly if there is one of the kind with the name, and
then changes nothing; otherwise the new definition is found from now on under its name, and all
others as before. -/
theorem c91_create {d : Database} (hg : Good d) (k : Kind) (n : String) (obj : Nat) :
    ∃ d' r, create d k n obj = .ok (d', r) ∧ Good d' ∧ d'.self = d.self ∧
      (r = none ↔ ∃ x, findByName d k n = some x) ∧
      (r = none → d' = d) ∧
      (∀ x, r = some x → x.obj = obj ∧ x.name = n ∧ x.kind = k ∧ x.owner = d.self ∧
        ∀ k' n', findByName d' k' n' =
          if k' = k ∧ n' = n then some x else findByName d k' n') := by
  obtain ⟨id, hid⟩ := nextMatId_ok hg k
  unfold create
  cases hf : getDefinition d n k with
  | some y => exact ⟨d, none, rfl, hg, rfl, by simp [findByName, hf], fun _ => rfl, by simp⟩
  | none =>
    simp only [hid, Res.bind_ok]
    have hn : findByName d k n = none := hf
    have hr := ret_addDefinition hg n ⟨obj, k, n, d.self, id⟩ hn
    refine ⟨(addDefinition d n ⟨obj, k, n, d.self, id⟩).1,
      (addDefinition d n ⟨obj, k, n, d.self, id⟩).2, rfl, good_addDefinition hg n _ rfl,
      ?_, ?_, ?_, ?_⟩
    · obtain ⟨c, hc⟩ := hg.coll k
      simp only [addDefinition, hc, setColl]
    · rw [hr]; simp [hn]
    · rw [hr]; simp
    · intro x hx
      rw [hr] at hx
      injection hx with hx
      subst hx
      exact ⟨rfl, rfl, rfl, rfl, fun k' n' => find_addDefinition hg n _ hn k' n'⟩

/-- Creating a definition with the suggested name does not fail. -/
theorem c91_next_name {d : Database} (hg : Good d) (k : Kind) (base : String) (obj : Nat) :
    ∃ d' x, create d k (getNextDefName d base k) obj = .ok (d', some x) := by
  obtain ⟨c, hc⟩ := hg.coll k
  obtain ⟨d', r, he, _, _, h1, _, _⟩ := c91_create hg k (getNextDefName d base k) obj
  cases r with
  | some x => exact ⟨d', x, he⟩
  | none =>
    exfalso
    obtain ⟨x, hx⟩ := h1.1 rfl
    unfold getNextDefName findByName getDefinition at hx
    rw [hc] at hx
    have := UMap.find?_isSome_iff c.defs (Naming.nextName (UMap.keys c.defs) base)
    simp only at hx
    rw [hx] at this
    exact Naming.nextName_not_mem _ _ (this.1 rfl)

theorem find_clear (d : Database) (k : Kind) (n : String) : findByName (clear d) k n = none := by
  unfold findByName getDefinition getColl clear
  simp only
  rw [find?_map_val d.colls (fun _ _ => (⟨[], []⟩ : Coll)) k]
  cases UMap.find? d.colls k <;> rfl

theorem good_clear {d : Database} (hg : Good d) : Good (clear d) := by
  refine ⟨?_, ?_, ?_⟩
  · simp only [clear]
    rw [keys_map_val d.colls (fun _ _ => (⟨[], []⟩ : Coll))]
    exact hg.keys
  · intro k c h
    simp only [clear, List.mem_map, Prod.mk.injEq] at h
    obtain ⟨e, _, _, rfl⟩ := h
    exact UMap.WF_nil
  · intro k c h n x hx
    simp only [clear, List.mem_map, Prod.mk.injEq] at h
    obtain ⟨e, _, _, rfl⟩ := h
    simp at hx

theorem find_assign (s : Nat) (d : Database) (b : Nat) (k : Kind) (n : String) :
    findByName (assign s d b) k n =
      (findByName d k n).map (fun x => { x with obj := x.obj + b, owner := s }) := by
  unfold findByName getDefinition getColl assign
  simp only
  rw [find?_map_val d.colls (fun _ c => (c.clone b).setDatabase s) k]
  cases hc : UMap.find? d.colls k with
  | none => rfl
  | some c =>
    simp only [Option.map_some, Coll.setDatabase, Coll.clone, List.map_map]
    exact find?_map_val c.defs
      (fun _ x => ({ x with obj := x.obj + b, owner := s } : Defn)) n

theorem good_assign {d : Database} (hg : Good d) (s b : Nat) : Good (assign s d b) := by
  refine ⟨?_, ?_, ?_⟩
  · simp only [assign]
    rw [keys_map_val d.colls (fun _ c => (c.clone b).setDatabase s)]
    exact hg.keys
  · intro k c h
    simp only [assign, List.mem_map, Prod.mk.injEq] at h
    obtain ⟨e, he, _, rfl⟩ := h
    have := hg.wf _ _ he
    unfold UMap.WF UMap.keys at *
    simpa [Coll.setDatabase, Coll.clone, Function.comp_def] using this
  · intro k c h n x hx
    simp only [assign, List.mem_map, Prod.mk.injEq] at h
    obtain ⟨e, he, rfl, rfl⟩ := h
    simp only [Coll.setDatabase, Coll.clone, List.map_map, List.mem_map, Function.comp_apply,
      Prod.mk.injEq] at hx
    obtain ⟨q, hq, rfl, rfl⟩ := hx
    have := hg.filed _ _ he _ _ hq
    exact this

theorem find_addLayerMap {d : Database} (hg : Good d) (x : Defn) (k : Kind) (n : String) :
    (∃ y, findByName (addLayerMap d x).1 k n = some y) ↔
      ((∃ y, findByName d k n = some y) ∨ (k = .layerMap ∧ n = x.name)) := by
  unfold addLayerMap
  cases hf : getDefinition d x.name .layerMap with
  | some y =>
    simp only
    constructor
    · exact Or.inl
    · rintro (h | ⟨rfl, rfl⟩)
      · exact h
      · exact ⟨y, hf⟩
  | none =>
    simp only
    rw [find_addDefinition hg x.name { x with kind := .layerMap } hf]
    by_cases h : k = .layerMap ∧ n = x.name
    · simp [h]
    · simp [h]

theorem good_addLayerMap {d : Database} (hg : Good d) (x : Defn) : Good (addLayerMap d x).1 := by
  unfold addLayerMap
  split
  · exact hg
  · exact good_addDefinition hg _ _ rfl

/-- What holds after a history `p` (newest first). -/
structure Inv (p : List Op) (w : World) : Prop where
  len : w.dbs.length = numDbs p
  good : ∀ (i : Nat) d, w.dbs[i]? = some d → Good d
  has : ∀ (i : Nat) d, w.dbs[i]? = some d → ∀ k n, (∃ x, findByName d k n = some x) ↔ Has p i k n
  out : ∀ i, numDbs p ≤ i → ∀ k n, ¬ Has p i k n

theorem has_out (p : List Op) (i : Nat) (hi : numDbs p ≤ i) (k : Kind) (n : String) :
    ¬ Has p i k n := by
  induction p generalizing i k n with
  | nil => simp [Has]
  | cons op p ih =>
    cases op with
    | new => simp only [numDbs] at hi; exact ih i (by omega) k n
    | create i' k' n' =>
      simp only [numDbs] at hi
      simp only [Has]
      rintro (h | h)
      · exact ih i hi k n h
      · omega
    | addMap i' n' o =>
      simp only [numDbs] at hi
      simp only [Has]
      rintro (h | h)
      · exact ih i hi k n h
      · omega
    | copy i' =>
      simp only [numDbs] at hi
      simp only [Has]
      split at hi
      · rw [if_neg (by omega)]; exact ih i (by omega) k n
      · split
        · rintro ⟨h, _⟩; omega
        · exact ih i hi k n
    | assign i' j' =>
      simp only [numDbs] at hi
      simp only [Has]
      rw [if_neg (by omega)]
      exact ih i hi k n
    | clear i' =>
      simp only [numDbs] at hi
      simp only [Has]
      rintro ⟨_, h⟩
      exact ih i hi k n h

/-- Changing one database. -/
theorem inv_upd {p : List Op} {w : World} (h : Inv p w) (op : Op) (i : Nat)
    (f : Database → Res Database) (next : Nat) (hnum : numDbs (op :: p) = numDbs p)
    (hf : ∀ d, w.dbs[i]? = some d → ∃ d', f d = .ok d' ∧ Good d' ∧
      ∀ k n, (∃ x, findByName d' k n = some x) ↔ Has (op :: p) i k n)
    (hother : ∀ j, j ≠ i → ∀ k n, Has (op :: p) j k n ↔ Has p j k n) :
    ∃ w', w.upd i f next = .ok w' ∧ Inv (op :: p) w' := by
  unfold World.upd
  cases hd : w.dbs[i]? with
  | none =>
    refine ⟨w, rfl, ⟨by rw [hnum]; exact h.len, h.good, ?_, has_out _⟩⟩
    intro j d hj k n
    rw [h.has j d hj, hother j (by rintro rfl; rw [hd] at hj; cases hj)]
  | some d =>
    obtain ⟨d', he, hg, hh⟩ := hf d hd
    have hlt : i < w.dbs.length := by
      by_contra hc
      rw [List.getElem?_eq_none (by omega)] at hd; cases hd
    simp only [he, Res.bind_ok]
    refine ⟨_, rfl, ⟨by rw [hnum]; simpa using h.len, ?_, ?_, has_out _⟩⟩
    · intro j e hj
      by_cases hji : j = i
      · subst hji
        simp only [List.getElem?_set_self hlt, Option.some.injEq] at hj
        rw [← hj]; exact hg
      · simp only [List.getElem?_set_ne (Ne.symm hji)] at hj
        exact h.good j e hj
    · intro j e hj k n
      by_cases hji : j = i
      · subst hji
        simp only [List.getElem?_set_self hlt, Option.some.injEq] at hj
        rw [← hj]; exact hh k n
      · simp only [List.getElem?_set_ne (Ne.symm hji)] at hj
        rw [h.has j e hj, hother j hji]

theorem inv_append {p : List Op} {w : World} (h : Inv p w) (op : Op) (d : Database) (next : Nat)
    (hg : Good d) (hnum : numDbs (op :: p) = numDbs p + 1)
    (hd : ∀ k n, (∃ x, findByName d k n = some x) ↔ Has (op :: p) (numDbs p) k n)
    (hother : ∀ j, j < numDbs p → ∀ k n, Has (op :: p) j k n ↔ Has p j k n) :
    Inv (op :: p) ⟨w.dbs ++ [d], next⟩ := by
  have key : ∀ (j : Nat) e, (w.dbs ++ [d])[j]? = some e →
      (j < numDbs p ∧ w.dbs[j]? = some e) ∨ (j = numDbs p ∧ e = d) := by
    intro j e hj
    have hl := h.len
    rcases Nat.lt_trichotomy j w.dbs.length with hlt | heq | hgt
    · left; rw [List.getElem?_append_left hlt] at hj; exact ⟨by omega, hj⟩
    · right
      subst heq
      simp only [List.getElem?_concat_length, Option.some.injEq] at hj
      exact ⟨hl, hj.symm⟩
    · rw [List.getElem?_eq_none (by simp; omega)] at hj; cases hj
  refine ⟨by simp [h.len, hnum], ?_, ?_, has_out _⟩
  · intro j e hj
    rcases key j e hj with ⟨_, he⟩ | ⟨_, rfl⟩
    · exact h.good j e he
    · exact hg
  · intro j e hj k n
    rcases key j e hj with ⟨hlt, he⟩ | ⟨rfl, rfl⟩
    · rw [h.has j e he, hother j hlt]
    · exact hd k n

theorem inv_step {p : List Op} {w : World} (h : Inv p w) (op : Op) (hns : ∀ i, op ≠ .assign i i) :
    ∃ w', step w op = .ok w' ∧ Inv (op :: p) w' := by
  cases op with
  | new =>
    refine ⟨_, rfl, inv_append h _ _ _ (good_new _) rfl ?_ (fun _ _ _ _ => Iff.rfl)⟩
    intro k n
    rw [find_new]
    simp only [Has, reduceCtorEq, exists_false, false_iff]
    exact has_out p _ (Nat.le_refl _) k n
  | create i k name =>
    refine inv_upd h _ i _ _ rfl ?_ ?_
    · intro d hd
      have hlt : i < numDbs p := by
        rw [← h.len]; by_contra hc; rw [List.getElem?_eq_none (by omega)] at hd; cases hd
      obtain ⟨d', r, he, hg', _, h1, h2, h3⟩ := c91_create (h.good i d hd) k name w.next
      refine ⟨d', by rw [he]; rfl, hg', ?_⟩
      intro k' n'
      have hh := h.has i d hd k' n'
      simp only [Has]
      rw [← hh]
      cases r with
      | none =>
        rw [h2 rfl]
        constructor
        · exact Or.inl
        · rintro (hx | ⟨_, rfl, rfl, _⟩)
          · exact hx
          · exact h1.1 rfl
      | some x =>
        obtain ⟨_, _, _, _, h4⟩ := h3 x rfl
        rw [h4]
        by_cases hk : k' = k ∧ n' = name
        · simp [hk, hlt]
        · simp only [hk, if_false]
          constructor
          · exact Or.inl
          · rintro (hx | ⟨_, h5, h6, _⟩)
            · exact hx
            · exact absurd ⟨h5, h6⟩ hk
    · intro j hj k' n'
      simp [Has, hj]
  | addMap i name owner =>
    refine inv_upd h _ i _ _ rfl ?_ ?_
    · intro d hd
      have hlt : i < numDbs p := by
        rw [← h.len]; by_contra hc; rw [List.getElem?_eq_none (by omega)] at hd; cases hd
      refine ⟨_, rfl, good_addLayerMap (h.good i d hd) _, ?_⟩
      intro k' n'
      rw [find_addLayerMap (h.good i d hd), h.has i d hd]
      simp [Has, hlt]
    · intro j hj k' n'
      simp [Has, hj]
  | copy i =>
    simp only [step]
    cases hd : w.dbs[i]? with
    | none =>
      have hge : ¬ i < numDbs p := by
        rw [← h.len]; intro hc
        rw [List.getElem?_eq_getElem hc] at hd; cases hd
      refine ⟨w, rfl, ⟨by simp [numDbs, hge, h.len], h.good, ?_, has_out _⟩⟩
      intro j e hj k n
      have hlt : j < numDbs p := by
        rw [← h.len]; by_contra hc; rw [List.getElem?_eq_none (by omega)] at hj; cases hj
      rw [h.has j e hj]
      simp [Has, Nat.ne_of_lt hlt]
    | some d =>
      have hlt : i < numDbs p := by
        rw [← h.len]; by_contra hc; rw [List.getElem?_eq_none (by omega)] at hd; cases hd
      refine ⟨_, rfl, inv_append h _ _ _ (good_assign (h.good i d hd) _ _)
        (by simp [numDbs, hlt]) ?_ ?_⟩
      · intro k n
        rw [find_assign]
        simp only [Has, if_true, hlt, true_and]
        rw [← h.has i d hd k n]
        constructor
        · rintro ⟨x, hx⟩
          cases hf : findByName d k n with
          | none => rw [hf] at hx; cases hx
          | some y => exact ⟨y, rfl⟩
        · rintro ⟨x, hx⟩
          rw [hx]; exact ⟨_, rfl⟩
      · intro j hj k n
        simp [Has, Nat.ne_of_lt hj]
  | assign i j =>
    have hij : i ≠ j := by rintro rfl; exact hns i rfl
    simp only [step]
    cases hd : w.dbs[j]? with
    | none =>
      have hge : ¬ j < numDbs p := by
        rw [← h.len]; intro hc
        rw [List.getElem?_eq_getElem hc] at hd; cases hd
      refine ⟨w, rfl, ⟨h.len, h.good, ?_, has_out _⟩⟩
      intro q e hq k n
      rw [h.has q e hq]
      simp [Has, hge]
    | some d =>
      have hlt : j < numDbs p := by
        rw [← h.len]; by_contra hc; rw [List.getElem?_eq_none (by omega)] at hd; cases hd
      refine inv_upd h _ i _ _ rfl ?_ ?_
      · intro e he
        have hlti : i < numDbs p := by
          rw [← h.len]; by_contra hc; rw [List.getElem?_eq_none (by omega)] at he; cases he
        refine ⟨_, rfl, ?_, ?_⟩
        · rw [if_neg hij]; exact good_assign (h.good j d hd) _ _
        · intro k n
          rw [if_neg hij, find_assign]
          simp only [Has, hlti, hlt, and_self, if_true]
          rw [← h.has j d hd k n]
          constructor
          · rintro ⟨x, hx⟩
            cases hf : findByName d k n with
            | none => rw [hf] at hx; cases hx
            | some y => exact ⟨y, rfl⟩
          · rintro ⟨x, hx⟩
            rw [hx]; exact ⟨_, rfl⟩
      · intro q hq k n
        simp [Has, hq]
  | clear i =>
    refine inv_upd h _ i _ _ rfl ?_ ?_
    · intro d hd
      refine ⟨_, rfl, good_clear (h.good i d hd), ?_⟩
      intro k n
      rw [find_clear]
      simp [Has]
    · intro j hj k n
      simp [Has, hj]

theorem inv_run {p : List Op} {w : World} (h : Inv p w) (ops : List Op) (hns : NoSelf ops) :
    ∃ w', run w ops = .ok w' ∧ Inv (ops.reverse ++ p) w' := by
  induction ops generalizing p w with
  | nil => exact ⟨w, rfl, h⟩
  | cons op ops ih =>
    obtain ⟨w1, h1, h2⟩ := inv_step h op (fun i hi => hns i (by simp [hi]))
    obtain ⟨w2, h3, h4⟩ := ih h2 (fun i hi => hns i (by simp [hi]))
    refine ⟨w2, by simp [run, h1, h3], ?_⟩
    simpa using h4

/-- **C91**, for histories in which no database is assigned to itself: no call is undefined, there
are as many databases as were made, a database has a definition of some kind under a name exactly if
the history says so, what is found has the kind and name asked for, and creating a definition fails
exactly if there is one already (`c91_create` says the rest).  Missing: self-assignment, see
`c91_self_assign_refuted`. -/
theorem c91_dictionary_partial (ops : List Op) (hns : NoSelf ops) :
    ∃ w, run ⟨[], 0⟩ ops = .ok w ∧ w.dbs.length = numDbs ops.reverse ∧
      ∀ (i : Nat) d, w.dbs[i]? = some d → ∀ k n,
        ((∃ x, findByName d k n = some x) ↔ Has ops.reverse i k n) ∧
        (∀ x, findByName d k n = some x → x.name = n ∧ x.kind = k) ∧
        ∀ obj, ∃ d' r, create d k n obj = .ok (d', r) ∧ (r = none ↔ Has ops.reverse i k n) := by
  have h0 : Inv [] ⟨[], 0⟩ := ⟨rfl, by simp, by simp, has_out _⟩
  obtain ⟨w, hw, hi⟩ := inv_run h0 ops hns
  simp only [List.append_nil] at hi
  refine ⟨w, hw, hi.len, ?_⟩
  intro i d hd k n
  refine ⟨hi.has i d hd k n, fun x hx => (hi.good i d hd).found hx, ?_⟩
  intro obj
  obtain ⟨d', r, he, _, _, h1, _, _⟩ := c91_create (hi.good i d hd) k n obj
  exact ⟨d', r, he, by rw [h1, hi.has i d hd]⟩

/-- Self-assignment is not harmless: afterwards nothing is found, nothing can be created, and creating
a material is undefined. -/
theorem c91_self_assign_refuted (d : Database) (k : Kind) (n : String) (obj : Nat) :
    findByName (assignSelf d) k n = none ∧
    create (assignSelf d) k n obj =
      if k = .materialDef then .ub else .ok (assignSelf d, none) := by
  refine ⟨rfl, ?_⟩
  cases k <;> rfl

-- two databases, one a copy of the other, with definitions of the same name in several kinds
example : (run ⟨[], 0⟩ [.new, .create 0 .cell "A", .create 0 .materialDef "A", .copy 0,
    .create 1 .cell "B", .create 1 .cell "A", .clear 0]).bind (fun w =>
      .ok (w.dbs.map (fun d => ([Kind.cell, .materialDef].map (fun k =>
        ["A", "B"].map (fun n => (findByName d k n).isSome)))))) =
    .ok [[[false, false], [false, false]], [[true, true], [true, false]]] := by decide +kernel

example : NoSelf [.new, .create 0 .cell "A", .copy 0, .assign 0 1] := by
  intro i h
  simp only [List.mem_cons, reduceCtorEq, Op.assign.injEq, List.not_mem_nil, or_false, false_or] at h
  omega

/-! ### C92: materials by id -/

/-- Whether after a history (newest call first) database `i` was made empty (not copied) and has not
been assigned to since it was last empty. -/
def Fresh : List Op → Nat → Prop
  | [], _ => False
  | .new :: p, i => i = numDbs p ∨ Fresh p i
  | .copy i' :: p, i => ¬ (i' < numDbs p ∧ i = numDbs p) ∧ Fresh p i
  | .assign i' j' :: p, i => ¬ (i = i' ∧ j' < numDbs p) ∧ Fresh p i
  | .clear i' :: p, i => i = i' ∨ Fresh p i
  | _ :: p, i => Fresh p i

/-- What the id table holds for a material. -/
def lutOf (e : String × Defn) : Nat × Nat := (e.2.matId, e.2.obj)

/-- Materials are numbered in order of creation; all but the first `m` are in the id table. -/
structure MatOk (d : Database) (m : Nat) : Prop where
  ex : ∃ c, getColl d .materialDef = some c ∧
    c.defs.map (fun e => e.2.matId) = List.range c.defs.length ∧ m ≤ c.defs.length ∧
    c.lut = (c.defs.drop m).map lutOf

theorem matOk_new (s : Nat) : MatOk (new s) 0 := ⟨⟨⟨[], []⟩, rfl, rfl, Nat.le_refl _, rfl⟩⟩

theorem matOk_clear {d : Database} {m : Nat} (h : MatOk d m) : MatOk (clear d) 0 := by
  obtain ⟨c, hc, _⟩ := h.ex
  refine ⟨⟨⟨[], []⟩, ?_, rfl, Nat.le_refl _, rfl⟩⟩
  unfold getColl clear at *
  simp only
  rw [find?_map_val d.colls (fun _ _ => (⟨[], []⟩ : Coll)), hc]
  rfl

theorem matOk_assign {d : Database} {m : Nat} (h : MatOk d m) (s b : Nat) :
    ∃ m', MatOk (assign s d b) m' := by
  obtain ⟨c, hc, h1, _⟩ := h.ex
  refine ⟨c.defs.length, ⟨⟨(c.clone b).setDatabase s, ?_, ?_, ?_, ?_⟩⟩⟩
  · unfold getColl assign at *
    simp only
    rw [find?_map_val d.colls (fun _ c => (c.clone b).setDatabase s), hc]
    rfl
  · simpa [Coll.clone, Coll.setDatabase, Defn.clone, Function.comp_def] using h1
  · simp [Coll.clone, Coll.setDatabase]
  · simp [Coll.clone, Coll.setDatabase]

theorem ids_lt {l : List (String × Defn)} (h : l.map (fun e => e.2.matId) = List.range l.length)
    {e : String × Defn} (he : e ∈ l) : e.2.matId < l.length := by
  have : e.2.matId ∈ l.map (fun e => e.2.matId) := List.mem_map_of_mem he
  rw [h] at this
  exact List.mem_range.1 this

theorem matOk_add {d : Database} (hg : Good d) {m : Nat} (h : MatOk d m) (n : String) (x : Defn)
    (hn : findByName d x.kind n = none)
    (hid : x.kind = .materialDef → nextMatId d .materialDef = .ok x.matId) :
    MatOk (addDefinition d n x).1 m := by
  obtain ⟨c, hc, h1, h2, h3⟩ := h.ex
  obtain ⟨c', hc'⟩ := hg.coll x.kind
  unfold addDefinition
  rw [hc']
  simp only
  by_cases hk : x.kind = .materialDef
  · rw [hk] at hc' hn ⊢
    rw [hc] at hc'
    injection hc' with hc'
    subst hc'
    have hid' := hid hk
    simp only [nextMatId, if_true, hc, Res.ok.injEq] at hid'
    have hnc : UMap.find? c.defs n = none := by
      unfold findByName getDefinition at hn; rw [hc] at hn; exact hn
    have hcount : UMap.count c.defs n = false := by
      rw [UMap.count_eq_false_iff, ← UMap.find?_eq_none_iff]; exact hnc
    have hlut : UMap.count c.lut x.matId = false := by
      rw [UMap.count_eq_false_iff, h3]
      intro hm
      simp only [UMap.keys, List.map_map, List.mem_map, Function.comp_apply, lutOf] at hm
      obtain ⟨e, he, hee⟩ := hm
      have := ids_lt h1 (List.mem_of_mem_drop he)
      omega
    refine ⟨⟨c.add n x, by rw [getColl_setColl _ hc]; simp, ?_, ?_, ?_⟩⟩
    · simp only [Coll.add, UMap.emplace, hcount, Bool.false_eq_true, if_false, List.map_append,
        List.map_cons, List.map_nil, List.length_append, List.length_cons, List.length_nil,
        Nat.zero_add, List.range_succ, h1, ← hid']
    · simp only [Coll.add, UMap.emplace, hcount, Bool.false_eq_true, if_false, List.length_append]
      omega
    · simp only [Coll.add, UMap.emplace, hcount, Bool.false_eq_true, if_false, hk, if_true, hlut,
        List.drop_append_of_le_length h2, List.map_append, List.map_cons, List.map_nil, lutOf]
      rw [h3]
  · refine ⟨⟨c, ?_, h1, h2, h3⟩⟩
    rw [getColl_setColl _ hc', if_neg (fun hh => hk hh.symm)]
    exact hc

theorem matOk_create {d : Database} (hg : Good d) {m : Nat} (h : MatOk d m) (k : Kind) (n : String)
    (obj : Nat) {d' : Database} {r : Option Defn} (he : create d k n obj = .ok (d', r)) :
    MatOk d' m := by
  unfold create at he
  cases hf : getDefinition d n k with
  | some y => rw [hf] at he; injection he with he; injection he with he; rw [← he]; exact h
  | none =>
    rw [hf] at he
    obtain ⟨id, hid⟩ := nextMatId_ok hg k
    simp only [hid, Res.bind_ok] at he
    injection he with he
    have he := congrArg Prod.fst he
    simp only at he
    rw [← he]
    exact matOk_add hg h n ⟨obj, k, n, d.self, id⟩ hf (by rintro rfl; exact hid)

theorem matOk_addLayerMap {d : Database} (hg : Good d) {m : Nat} (h : MatOk d m) (x : Defn) :
    MatOk (addLayerMap d x).1 m := by
  unfold addLayerMap
  split
  · exact h
  · rename_i hf
    exact matOk_add hg h x.name { x with kind := .layerMap } hf (by simp)

/-- What holds of the materials after a history. -/
def MatInv (p : List Op) (w : World) : Prop :=
  ∀ (i : Nat) d, w.dbs[i]? = some d → (∃ m, MatOk d m) ∧ (Fresh p i → MatOk d 0)

theorem matInv_upd {p : List Op} {w w' : World} (hm : MatInv p w) (op : Op)
    (i : Nat) (f : Database → Res Database) (next : Nat) (hw : w.upd i f next = .ok w')
    (hf : ∀ d d', w.dbs[i]? = some d → f d = .ok d' →
      (∃ m, MatOk d' m) ∧ (Fresh (op :: p) i → MatOk d' 0))
    (hother : ∀ j, j ≠ i → Fresh (op :: p) j → Fresh p j) : MatInv (op :: p) w' := by
  unfold World.upd at hw
  cases hd : w.dbs[i]? with
  | none =>
    rw [hd] at hw
    injection hw with hw
    subst hw
    intro j e hj
    have hji : j ≠ i := by rintro rfl; rw [hd] at hj; cases hj
    exact ⟨(hm j e hj).1, fun hfr => (hm j e hj).2 (hother j hji hfr)⟩
  | some d =>
    rw [hd] at hw
    cases hfd : f d with
    | ub => simp [hfd] at hw
    | exn => simp [hfd] at hw
    | ok d' =>
      simp only [hfd, Res.bind_ok, Res.ok.injEq] at hw
      subst hw
      intro j e hj
      by_cases hji : j = i
      · subst hji
        have hlt : j < w.dbs.length := by
          by_contra hc
          rw [List.getElem?_eq_none (by omega)] at hd; cases hd
        simp only [List.getElem?_set_self hlt, Option.some.injEq] at hj
        subst hj
        exact hf d _ hd hfd
      · simp only [List.getElem?_set_ne (Ne.symm hji)] at hj
        exact ⟨(hm j e hj).1, fun hfr => (hm j e hj).2 (hother j hji hfr)⟩

theorem matInv_append {p : List Op} {w : World} (h : Inv p w) (hm : MatInv p w) (op : Op)
    (d : Database) (next : Nat) (hd : (∃ m, MatOk d m) ∧ (Fresh (op :: p) (numDbs p) → MatOk d 0))
    (hother : ∀ j, j < numDbs p → Fresh (op :: p) j → Fresh p j) :
    MatInv (op :: p) ⟨w.dbs ++ [d], next⟩ := by
  intro j e hj
  have hl := h.len
  rcases Nat.lt_trichotomy j w.dbs.length with hlt | heq | hgt
  · simp only [List.getElem?_append_left hlt] at hj
    exact ⟨(hm j e hj).1, fun hf => (hm j e hj).2 (hother j (by omega) hf)⟩
  · subst heq
    simp only [List.getElem?_concat_length, Option.some.injEq] at hj
    subst hj
    rw [hl]; exact hd
  · simp only [List.getElem?_eq_none (show (w.dbs ++ [d]).length ≤ j by simp; omega)] at hj
    cases hj

theorem matInv_step {p : List Op} {w w' : World} (h : Inv p w) (hm : MatInv p w) (op : Op)
    (hns : ∀ i, op ≠ .assign i i) (hw : step w op = .ok w') : MatInv (op :: p) w' := by
  cases op with
  | new =>
    injection hw with hw
    subst hw
    refine matInv_append h hm _ _ _ ⟨⟨0, matOk_new _⟩, fun _ => matOk_new _⟩ ?_
    rintro j hj (hf | hf)
    · omega
    · exact hf
  | create i k name =>
    refine matInv_upd hm _ i _ _ hw ?_ (fun _ _ hf => hf)
    intro d d' hd he
    cases hc : create d k name w.next with
    | ub => simp [hc] at he
    | exn => simp [hc] at he
    | ok r =>
      simp only [hc, Res.bind_ok, Res.ok.injEq] at he
      subst he
      obtain ⟨⟨m, h1⟩, h2⟩ := hm i d hd
      exact ⟨⟨m, matOk_create (h.good i d hd) h1 k name _ hc⟩,
        fun hf => matOk_create (h.good i d hd) (h2 hf) k name _ hc⟩
  | addMap i name owner =>
    refine matInv_upd hm _ i _ _ hw ?_ (fun _ _ hf => hf)
    intro d d' hd he
    injection he with he
    subst he
    obtain ⟨⟨m, h1⟩, h2⟩ := hm i d hd
    exact ⟨⟨m, matOk_addLayerMap (h.good i d hd) h1 _⟩,
      fun hf => matOk_addLayerMap (h.good i d hd) (h2 hf) _⟩
  | copy i =>
    simp only [step] at hw
    cases hd : w.dbs[i]? with
    | none =>
      rw [hd] at hw
      injection hw with hw
      subst hw
      intro j e hj
      exact ⟨(hm j e hj).1, fun hf => (hm j e hj).2 hf.2⟩
    | some d =>
      have hlt : i < numDbs p := by
        rw [← h.len]; by_contra hc; rw [List.getElem?_eq_none (by omega)] at hd; cases hd
      simp only [hd, Res.ok.injEq] at hw
      subst hw
      obtain ⟨⟨m, h1⟩, _⟩ := hm i d hd
      refine matInv_append h hm _ _ _ ⟨matOk_assign h1 _ _, ?_⟩ (fun _ _ hf => hf.2)
      intro hf
      exact absurd ⟨hlt, rfl⟩ hf.1
  | assign i j =>
    have hij : i ≠ j := by rintro rfl; exact hns i rfl
    simp only [step] at hw
    cases hd : w.dbs[j]? with
    | none =>
      rw [hd] at hw
      injection hw with hw
      subst hw
      intro q e hq
      exact ⟨(hm q e hq).1, fun hf => (hm q e hq).2 hf.2⟩
    | some d =>
      have hlt : j < numDbs p := by
        rw [← h.len]; by_contra hc; rw [List.getElem?_eq_none (by omega)] at hd; cases hd
      rw [hd] at hw
      refine matInv_upd hm _ i _ _ hw ?_ (fun _ _ hf => hf.2)
      intro e d' he hfe
      rw [if_neg hij] at hfe
      injection hfe with hfe
      subst hfe
      obtain ⟨⟨m, h1⟩, _⟩ := hm j d hd
      refine ⟨matOk_assign h1 _ _, ?_⟩
      intro hf
      exact absurd ⟨rfl, hlt⟩ hf.1
  | clear i =>
    refine matInv_upd hm _ i _ _ hw ?_ ?_
    · intro d d' hd he
      injection he with he
      subst he
      obtain ⟨⟨m, h1⟩, _⟩ := hm i d hd
      exact ⟨⟨0, matOk_clear h1⟩, fun _ => matOk_clear h1⟩
    · rintro j hj (hf | hf)
      · exact absurd hf hj
      · exact hf

theorem matInv_run {p : List Op} {w w' : World} (h : Inv p w) (hm : MatInv p w) (ops : List Op)
    (hns : NoSelf ops) (hw : run w ops = .ok w') : MatInv (ops.reverse ++ p) w' := by
  induction ops generalizing p w with
  | nil => injection hw with hw; subst hw; exact hm
  | cons op ops ih =>
    have hop : ∀ i, op ≠ .assign i i := fun i hi => hns i (by simp [hi])
    obtain ⟨w1, h1, h2⟩ := inv_step h op hop
    have h3 := matInv_step h hm op hop h1
    simp only [run, h1, Res.bind_ok] at hw
    have := ih h2 h3 (fun i hi => hns i (by simp [hi])) hw
    simpa using this

/-- The entries of the material collection are what can be found by name. -/
theorem mem_defs_iff {d : Database} (hg : Good d) {c : Coll}
    (hc : getColl d .materialDef = some c) (n : String) (x : Defn) :
    (n, x) ∈ c.defs ↔ findByName d .materialDef n = some x := by
  unfold findByName getDefinition
  rw [hc]
  exact (UMap.find?_eq_some_iff (hg.collWF hc) n x).symm

theorem inj_ids {l : List (String × Defn)}
    (h : l.map (fun e => e.2.matId) = List.range l.length) {a b : String × Defn} (ha : a ∈ l)
    (hb : b ∈ l) (hab : a.2.matId = b.2.matId) : a = b := by
  have hnd : (l.map (fun e => e.2.matId)).Nodup := by rw [h]; exact List.nodup_range
  exact List.inj_on_of_nodup_map hnd ha hb hab

/-- **C92**, without the databases that are copies: after any history without self-assignment, the
materials of every database have different ids, and what is found by an id is a material of this
database that has the id; in a database that is not a copy every material is found by its id.
Missing: copies, see `c92_copy_refuted`. -/
theorem c92_ids_partial (ops : List Op) (hns : NoSelf ops) {w : World}
    (hw : run ⟨[], 0⟩ ops = .ok w) {i : Nat} {d : Database} (hd : w.dbs[i]? = some d) :
    (∀ n n' x x', findByName d .materialDef n = some x → findByName d .materialDef n' = some x' →
      x.matId = x'.matId → n = n' ∧ x = x') ∧
    (∀ id o, findById d id = some o →
      ∃ n x, findByName d .materialDef n = some x ∧ x.matId = id ∧ x.obj = o) ∧
    (Fresh ops.reverse i → ∀ n x, findByName d .materialDef n = some x →
      findById d x.matId = some x.obj) := by
  have h0 : Inv [] ⟨[], 0⟩ := ⟨rfl, by simp, by simp, has_out _⟩
  have hm0 : MatInv [] ⟨[], 0⟩ := by intro j e hj; simp at hj
  obtain ⟨w', hw', hi⟩ := inv_run h0 ops hns
  rw [hw] at hw'
  injection hw' with hw'
  subst hw'
  have hmi := matInv_run h0 hm0 ops hns hw
  simp only [List.append_nil] at hi hmi
  have hg := hi.good i d hd
  obtain ⟨⟨m, hm⟩, hf⟩ := hmi i d hd
  obtain ⟨c, hc, h1, h2, h3⟩ := hm.ex
  refine ⟨?_, ?_, ?_⟩
  · intro n n' x x' hx hx' hid
    have := inj_ids h1 ((mem_defs_iff hg hc n x).2 hx) ((mem_defs_iff hg hc n' x').2 hx') hid
    simpa using this
  · intro id o ho
    unfold findById at ho
    rw [hc] at ho
    have hmem := UMap.find?_mem ho
    rw [h3] at hmem
    obtain ⟨e, he, hee⟩ := List.mem_map.1 hmem
    simp only [lutOf, Prod.mk.injEq] at hee
    exact ⟨e.1, e.2, (mem_defs_iff hg hc e.1 e.2).1 (List.mem_of_mem_drop he), hee.1, hee.2⟩
  · intro hfr n x hx
    obtain ⟨c', hc', h1', _, h3'⟩ := (hf hfr).ex
    rw [hc] at hc'
    injection hc' with hc'
    subst hc'
    have hmem := (mem_defs_iff hg hc n x).2 hx
    unfold findById
    rw [hc]
    simp only
    have hwf : UMap.WF c.lut := by
      unfold UMap.WF UMap.keys
      rw [h3', List.drop_zero, List.map_map]
      rw [show (Prod.fst ∘ lutOf) = (fun e : String × Defn => e.2.matId) from rfl, h1']
      exact List.nodup_range
    rw [UMap.find?_eq_some_iff hwf, h3', List.drop_zero]
    exact List.mem_map.2 ⟨(n, x), hmem, rfl⟩

/-- A copy finds no material by id, although it has all the materials of the original with their
ids. -/
theorem c92_copy_refuted (d : Database) (s b id : Nat) :
    findById (assign s d b) id = none ∧
    ∀ n x, findByName d .materialDef n = some x →
      ∃ y, findByName (assign s d b) .materialDef n = some y ∧ y.matId = x.matId := by
  constructor
  · unfold findById getColl assign
    simp only
    rw [find?_map_val d.colls (fun _ c => (c.clone b).setDatabase s)]
    cases UMap.find? d.colls .materialDef <;> rfl
  · intro n x hx
    rw [find_assign, hx]
    exact ⟨_, rfl, rfl⟩

example : (run ⟨[], 0⟩ [.new, .create 0 .materialDef "Cu", .create 0 .cell "A",
    .create 0 .materialDef "Al", .copy 0, .create 1 .materialDef "Au"]).bind (fun w =>
      .ok (w.dbs.map (fun d => [0, 1, 2].map (findById d)))) =
    .ok [[some 1, some 3, none], [none, none, some 10]] := by decide +kernel

example : Fresh [.create 0 .materialDef "Al", .create 0 .materialDef "Cu", .new] 0 := by
  simp [Fresh, numDbs]

end Ecad.Db
