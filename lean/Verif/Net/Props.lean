import Verif.Net.Lemmas
import Verif.Naming.Props
/-!
C03: net ids identify nets.  C04: ids in a copied net collection.
-/
namespace Ecad
open Net

/-- The nets a collection holds (what an iteration over it yields). -/
def Net.contents (c : Net.Coll) : List Net.Net := c.nets.map Prod.snd

theorem mem_contents {c : Net.Coll} {n : Net.Net} : n ∈ contents c ↔ ∃ k, (k, n) ∈ c.nets := by
  simp [contents]

/-- **C03.** After every history of fewer than 2^32 calls starting from an empty collection:
no two nets share an id, no two share a name, and looking up an id returns a net exactly when it
is a net of the collection with this id; the same for names. -/
theorem c03_net_ids (os : List Op) (hlen : os.length < 2 ^ 32) :
    ((contents (run {} os)).map Net.Net.id).Nodup ∧
    ((contents (run {} os)).map Net.Net.name).Nodup ∧
    (∀ (i : Int) (n : Net.Net),
      (findById (run {} os) i).2 = some n ↔ n ∈ contents (run {} os) ∧ n.id = i) ∧
    (∀ (s : String) (n : Net.Net),
      findByName (run {} os) s = some n ↔ n ∈ contents (run {} os) ∧ n.name = s) := by
  have hi : Inv (run {} os) := inv_run inv_empty os
  have hu : (run {} os).uid ≤ 2 ^ 32 := by
    have := uid_run {} os
    simp only [Nat.zero_add] at this
    omega
  refine ⟨?_, ?_, ?_, ?_⟩
  · simpa [contents, Function.comp_def] using nodup_ids hi hu
  · have : (contents (run {} os)).map Net.Net.name = UMap.keys (run {} os).nets := by
      unfold contents UMap.keys
      rw [List.map_map]
      exact List.map_congr_left (fun e he => hi.named e he)
    rw [this]; exact hi.wf
  · intro i n
    rw [findById_iff hi hu, mem_contents]
  · intro s n
    rw [findByName_eq, UMap.find?_eq_some_iff hi.wf, mem_contents]
    constructor
    · intro h; exact ⟨⟨s, h⟩, hi.named _ h⟩
    · rintro ⟨⟨k, hk⟩, rfl⟩
      have := hi.named _ hk
      simp only at this
      rw [this]; exact hk

/-- **C03** (effect of the calls): creating a net under a free name adds exactly this net,
creating under a used name is refused and changes nothing, importing a net always succeeds and
adds it under the next free name, lookups change nothing, and clearing removes everything. -/
theorem c03_net_effects (os : List Op) (s : String) (i : Int) :
    let c := run {} os
    (s ∉ (contents c).map Net.Net.name → ∃ n, (createNet c s).2 = some n ∧ n.name = s ∧
      contents (createNet c s).1 = contents c ++ [n]) ∧
    (s ∈ (contents c).map Net.Net.name → createNet c s = (c, none)) ∧
    (∃ n, (addNet c s).2 = some n ∧ IsNextName ((contents c).map Net.Net.name) s n.name ∧
      contents (addNet c s).1 = contents c ++ [n]) ∧
    contents (findById c i).1 = contents c ∧
    contents (clear c) = [] := by
  intro c
  have hi : Inv c := inv_run inv_empty os
  have hk : (contents c).map Net.Net.name = UMap.keys c.nets := by
    unfold contents UMap.keys
    rw [List.map_map]
    exact List.map_congr_left (fun e he => hi.named e he)
  rw [hk]
  refine ⟨?_, ?_, ?_, ?_, rfl⟩
  · intro h
    have hc : UMap.count c.nets s = false := (UMap.count_eq_false_iff _ _).2 h
    refine ⟨⟨s, uidValue c.uid⟩, ?_, rfl, ?_⟩
    · simp [createNet, hc]
    · simp [createNet, hc, contents, UMap.emplace]
  · intro h
    have hc : UMap.count c.nets s = true := (UMap.count_iff_mem_keys _ _).2 h
    simp [createNet, hc]
  · have hc := nextName_fresh c s
    obtain ⟨r, hr, hr2⟩ := c01_next_name (UMap.keys c.nets) s
    have hrn : Naming.nextName (UMap.keys c.nets) s = r := by
      have h1 := Naming.nextName_eq (UMap.keys c.nets) s
      rw [hr2 _ le_rfl] at h1
      simpa using h1.symm
    rw [hrn] at hc
    refine ⟨⟨r, uidValue c.uid⟩, ?_, hr, ?_⟩
    · simp only [addNet, hrn]
      rw [UMap.find?_emplace]; simp [hc]
    · simp [addNet, hrn, hc, contents, UMap.emplace]
  · simp [findById_fst, contents, buildLUT_nets]

/-- A history mixing lookups (which build the index) and edits (which must drop it). -/
example : (findById (run {} [.create "a", .byId 0, .add "a", .byId 1, .create "a"]) 1).2 =
    some ⟨"a1", 1⟩ := by decide

/-- **C04 is false of the code.**  Copying a non-empty collection and creating a net in the copy
*always* gives a net whose id is already the id of another net, for every history that has left
at least one net. -/
theorem c04_copy_collides_refuted (os : List Op) (hne : contents (run {} os) ≠ [])
    (s : String) (hs : s ∉ (contents (run {} os)).map Net.Net.name) :
    ∃ n ∈ contents (run {} os), ∃ n',
      (createNet (copy (run {} os)) s).2 = some n' ∧ n'.id = n.id ∧ n' ≠ n := by
  -- the net created first since the last clear has id 0
  have hz : ∀ (os : List Op) (c : Coll), (c.uid = 0 → c.nets = []) →
      (c.uid ≠ 0 → ∃ e ∈ c.nets, e.2.id = 0) →
      ((run c os).uid = 0 → (run c os).nets = []) ∧
      ((run c os).uid ≠ 0 → ∃ e ∈ (run c os).nets, e.2.id = 0) := by
    intro os
    induction os with
    | nil => intro c h1 h2; exact ⟨h1, h2⟩
    | cons o os ih =>
      intro c h1 h2
      have push : ∀ name, UMap.count c.nets name = false →
          ∃ e ∈ (UMap.emplace c.nets name (⟨name, uidValue c.uid⟩ : Net.Net)).1, e.2.id = 0 := by
        intro name hn
        by_cases h0 : c.uid = 0
        · refine ⟨(name, ⟨name, uidValue c.uid⟩), by simp [UMap.emplace, hn], ?_⟩
          simp only [h0]; decide
        · obtain ⟨e, he, hid⟩ := h2 h0
          exact ⟨e, by simp [UMap.emplace, hn, he], hid⟩
      refine ih _ ?_ ?_
      · cases o with
        | create n =>
          simp only [step, createNet]; split
          · exact h1
          · simp
        | add n => simp [step, addNet]
        | byId i => simpa [step, findById_fst, buildLUT_nets, buildLUT_uid] using h1
        | byName n => exact h1
        | clear => simp [step, clear]
      · cases o with
        | create n =>
          simp only [step, createNet]; split
          · exact h2
          · rename_i hc; intro _; exact push n (by simpa using hc)
        | add n => intro _; exact push _ (nextName_fresh c n)
        | byId i => simpa [step, findById_fst, buildLUT_nets, buildLUT_uid] using h2
        | byName n => exact h2
        | clear => simp [step, clear]
  obtain ⟨g1, g2⟩ := hz os {} (fun _ => rfl) (by simp)
  have hu : (run {} os).uid ≠ 0 := by
    intro h0
    apply hne
    simp [contents, g1 h0]
  obtain ⟨e, he, hid⟩ := g2 hu
  have hi : Inv (run {} os) := inv_run inv_empty os
  have hc : UMap.count (run {} os).nets s = false := by
    rw [UMap.count_eq_false_iff]
    intro hm
    apply hs
    simp only [UMap.keys, List.mem_map] at hm
    obtain ⟨e, he, rfl⟩ := hm
    simp only [contents, List.map_map, List.mem_map, Function.comp_apply]
    exact ⟨e, he, hi.named e he⟩
  refine ⟨e.2, by simp only [contents, List.mem_map]; exact ⟨e, he, rfl⟩, ⟨s, uidValue 0⟩, ?_, ?_, ?_⟩
  · simp [createNet, copy, assign, hc]
  · rw [hid]; show uidValue 0 = 0; decide
  · intro heq
    apply hs
    simp only [contents, List.map_map, List.mem_map, Function.comp_apply]
    exact ⟨e, he, by rw [← heq]⟩

example : contents (run {} [.create "a", .create "b"]) ≠ [] ∧
    "c" ∉ (contents (run {} [.create "a", .create "b"])).map Net.Net.name := by decide

/-- **C04, what does hold.**  A copy (constructor or clone) holds the same nets and answers every
lookup like the original, and in a copy of an empty collection ids stay unique for ever.
Missing compared with C04: uniqueness of ids when nets are created in a copy of a non-empty
collection, which is false (`c04_copy_collides_refuted`). -/
theorem c04_copy_partial (os os' : List Op) (hlen : os.length < 2 ^ 32) (hlen' : os'.length < 2 ^ 32) :
    contents (copy (run {} os)) = contents (run {} os) ∧
    (∀ i, (findById (copy (run {} os)) i).2 = (findById (run {} os) i).2) ∧
    (∀ s, findByName (copy (run {} os)) s = findByName (run {} os) s) ∧
    (contents (run {} os) = [] →
      ((contents (run (copy (run {} os)) os')).map Net.Net.id).Nodup) := by
  have hi : Inv (run {} os) := inv_run inv_empty os
  have hu : (run {} os).uid ≤ 2 ^ 32 := by
    have := uid_run {} os
    simp only [Nat.zero_add] at this
    omega
  refine ⟨rfl, ?_, ?_, ?_⟩
  · intro i
    -- the copy has no index yet; build it from the same nets
    have key : ∀ n, (findById (copy (run {} os)) i).2 = some n ↔
        (findById (run {} os) i).2 = some n := by
      intro n
      rw [findById_iff hi hu]
      obtain ⟨h1, h2⟩ := foldl_lut (run {} os).nets [] (nodup_ids hi hu) UMap.WF_nil (by simp [UMap.keys])
      have hcopy : (findById (copy (run {} os)) i).2 =
          (UMap.find? ((run {} os).nets.foldl (fun l e => (UMap.emplace l e.2.id e.2.name).1) []) i).bind
            (fun name => UMap.find? (run {} os).nets name) := by
        simp only [findById, copy, assign, buildLUT, Option.getD_some]
        cases hx : UMap.find? ((run {} os).nets.foldl
          (fun l e => (UMap.emplace l e.2.id e.2.name).1) []) i with
        | none => rfl
        | some name => simp only [findByName_eq, Option.bind_some]
      rw [hcopy]
      constructor
      · intro hh
        cases hx : UMap.find? ((run {} os).nets.foldl
          (fun l e => (UMap.emplace l e.2.id e.2.name).1) []) i with
        | none => rw [hx] at hh; simp at hh
        | some name =>
          rw [hx, Option.bind_some] at hh
          have := (h2 i name).1 (UMap.find?_mem hx)
          simp only [List.not_mem_nil, false_or] at this
          obtain ⟨e, he, h3, h4⟩ := this
          have hk := hi.named e he
          rw [← h4, hk, (UMap.find?_eq_some_iff hi.wf e.1 e.2).2 he] at hh
          simp only [Option.some.injEq] at hh
          subst hh
          exact ⟨⟨e.1, he⟩, h3⟩
      · rintro ⟨⟨k, hk⟩, hid⟩
        have hl2 := (h2 i n.name).2 (Or.inr ⟨(k, n), hk, hid, rfl⟩)
        rw [(UMap.find?_eq_some_iff h1 i n.name).2 hl2, Option.bind_some]
        have := hi.named _ hk
        simp only at this
        rw [this]
        exact (UMap.find?_eq_some_iff hi.wf k n).2 hk
    cases hx : (findById (run {} os) i).2 with
    | some n => exact (key n).2 hx
    | none =>
      cases hy : (findById (copy (run {} os)) i).2 with
      | none => rfl
      | some n => rw [(key n).1 hy] at hx; cases hx
  · intro s; simp [findByName_eq, copy, assign]
  · intro hemp
    have : copy (run {} os) = {} := by
      have : (run {} os).nets = [] := by simpa [contents] using hemp
      simp [copy, assign, this]
    rw [this]
    exact (c03_net_ids os' hlen').1

example : contents (run {} [.create "a", .clear]) = [] := by decide

end Ecad
