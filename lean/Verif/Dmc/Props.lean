import Verif.Dmc.Model
import Verif.Net.Lemmas
import Mathlib.Tactic.Linarith
/-!
C52 and C73: import of DMC/DOM files.
-/
namespace Ecad.Dmc

variable {P : Type}

/-- an outline with the holes after it: the records and the points they stand for -/
structure Group (P : Type) where
  head : Rec
  outline : List P
  holes : List (Rec × List P)

/-- the counts of the records are the numbers of points -/
def Group.Fits (g : Group P) : Prop :=
  g.head.isHole = false ∧ g.head.points = g.outline.length ∧ ∀ h ∈ g.holes, h.1.isHole = true ∧ h.1.points = h.2.length

def Group.recs (g : Group P) : List Rec := g.head :: g.holes.map Prod.fst

def Group.pts (g : Group P) : List P := g.outline ++ g.holes.flatMap Prod.snd

def Group.shape (g : Group P) : Shape P := ⟨g.outline, g.holes.map Prod.snd⟩

theorem run_append (a b : List P) : run a.length (a ++ b) = .ok (a, b) := by
  unfold run
  rw [if_pos (by simp)]
  simp

theorem holes_spec (hs : List (Rec × List P)) (hh : ∀ h ∈ hs, h.1.isHole = true ∧ h.1.points = h.2.length) (rest : List Rec)
    (hr : ∀ r, rest.head? = some r → r.isHole = false) (more : List P) :
    holes (hs.map Prod.fst ++ rest) (hs.flatMap Prod.snd ++ more) = .ok (hs.map Prod.snd, rest, more) := by
  induction hs with
  | nil =>
    cases rest with
    | nil => rfl
    | cons r rs =>
      have := hr r rfl
      simp only [List.map_nil, List.nil_append, List.flatMap_nil]
      rw [holes, if_neg (by simp [this])]
  | cons h hs ih =>
    obtain ⟨h1, h2⟩ := hh h (by simp)
    simp only [List.map_cons, List.cons_append, List.flatMap_cons, List.append_assoc]
    rw [holes, if_pos h1, h2, run_append, Res.bind_ok, ih fun x hx => hh x (by simp [hx])]
    rfl

/-- placing the groups one after the other -/
def placeAll : St P → List (Group P) → Res (St P)
  | s, [] => .ok s
  | s, g :: gs => (place s g.head g.shape).bind fun s => placeAll s gs

theorem walk_groups (gs : List (Group P)) (hf : ∀ g ∈ gs, g.Fits) (more : List P) : ∀ (n : Nat) (s : St P), gs.length ≤ n →
    walk n s (gs.flatMap Group.recs) (gs.flatMap Group.pts ++ more) = placeAll s gs := by
  induction gs with
  | nil =>
    intro n s _
    cases n with
    | zero => rfl
    | succ n => rfl
  | cons g gs ih =>
    intro n s hn
    obtain ⟨n, rfl⟩ : ∃ m, n = m + 1 := ⟨n - 1, by simp at hn; omega⟩
    obtain ⟨h1, h2, h3⟩ := hf g (by simp)
    simp only [List.flatMap_cons, Group.recs, Group.pts, List.cons_append, List.append_assoc]
    rw [walk, if_neg (by simp [h1]), h2, run_append, Res.bind_ok]
    simp only
    have hh := holes_spec g.holes h3 (gs.flatMap Group.recs) (by
      intro r hr
      cases gs with
      | nil => simp at hr
      | cons g' gs =>
        simp only [List.flatMap_cons, Group.recs, List.cons_append, List.head?_cons, Option.some.injEq] at hr
        rw [← hr]
        exact (hf g' (by simp)).1) (gs.flatMap Group.pts ++ more)
    rw [hh, Res.bind_ok, placeAll]
    have : (⟨g.outline, g.holes.map Prod.snd⟩ : Shape P) = g.shape := rfl
    rw [this]
    cases place s g.head g.shape with
    | ub => rfl
    | exn => rfl
    | ok s' => exact ih (fun x hx => hf x (by simp [hx])) n s' (by simp at hn; omega)

/-- the records agree: ids of nets and names belong together, a layer id has one name, a signal layer one layer id -/
structure Agree (gs : List (Group P)) : Prop where
  net : ∀ g ∈ gs, ∀ h ∈ gs, g.head.netId = h.head.netId ↔ g.head.netName = h.head.netName
  lyr : ∀ g ∈ gs, ∀ h ∈ gs, g.head.isVia = false → h.head.isVia = false → g.head.layerId = h.head.layerId → g.head.lyrName = h.head.lyrName
  sig : ∀ g ∈ gs, ∀ h ∈ gs, g.head.isVia = false → h.head.isVia = false → g.head.sigLyr1 = h.head.sigLyr1 → g.head.layerId = h.head.layerId

/-- what holds after the groups `gs` -/
structure Inv (gs : List (Group P)) (s : St P) : Prop where
  coll : Net.Inv s.coll
  uid : s.coll.uid ≤ gs.length
  nets : ∀ g ∈ gs, ∃ e ∈ s.coll.nets, e.1 = g.head.netName ∧ UMap.find? s.netMap g.head.netId = some e.2.id
  netKey : ∀ i, UMap.count s.netMap i = true → ∃ g ∈ gs, g.head.netId = i
  netName : ∀ n ∈ UMap.keys s.coll.nets, ∃ g ∈ gs, g.head.netName = n
  lyrs : ∀ g ∈ gs, g.head.isVia = false → ∃ (k : Nat) (l : Layer.Lyr), UMap.find? s.lyrMap g.head.layerId = some (k : Int) ∧ s.layers[k]? = some l ∧
    l.name = g.head.lyrName
  lyrKey : ∀ i v, UMap.find? s.lyrMap i = some v → (∃ g ∈ gs, g.head.isVia = false ∧ g.head.layerId = i) ∧ v < (s.layers.length : Int)
  lyrInj : ∀ i j v, UMap.find? s.lyrMap i = some v → UMap.find? s.lyrMap j = some v → i = j
  count : ∀ (k : Nat), k < s.layers.length → ∃ i, UMap.find? s.lyrMap i = some (k : Int)
  sig : ∀ g ∈ gs, g.head.isVia = false → UMap.find? s.sigMap g.head.sigLyr1 = some g.head.layerId
  sigKey : ∀ i, UMap.count s.sigMap i = true → ∃ g ∈ gs, g.head.isVia = false ∧ g.head.sigLyr1 = i
  geoms : s.geoms = (gs.filter fun g => !g.head.isVia).map fun g =>
    ⟨(UMap.find? s.lyrMap g.head.layerId).getD 0, (UMap.find? s.netMap g.head.netId).getD 0, g.shape⟩
  vias : s.vias = (gs.filter fun g => g.head.isVia).map fun g => (g.head.netId, g.head.sigLyr1, g.head.sigLyr2, g.shape)

theorem inv_empty : Inv ([] : List (Group P)) ({} : St P) where
  coll := Net.inv_empty
  uid := by simp
  nets := by simp
  netKey := by intro i h; simp [UMap.count] at h
  netName := by intro n h; simp [UMap.keys] at h
  lyrs := by simp
  lyrKey := by intro i v h; simp [UMap.find?_nil] at h
  lyrInj := by intro i j v h; simp [UMap.find?_nil] at h
  count := by simp
  sig := by simp
  sigKey := by intro i h; simp [UMap.count] at h
  geoms := rfl
  vias := rfl

theorem keep {m : List (Int × Int)} {k : Int} (hk : UMap.count m k = false) (w : Int) {i v : Int} (h : UMap.find? m i = some v) :
    UMap.find? (UMap.emplace m k w).1 i = some v := by
  rw [UMap.find?_emplace', if_neg]
  · exact h
  · rintro ⟨rfl, _⟩
    rw [UMap.count_eq_false_iff, ← UMap.find?_eq_none_iff, h] at hk
    simp at hk

theorem fresh {m : List (Int × Int)} {k : Int} (hk : UMap.count m k = false) (w : Int) :
    UMap.find? (UMap.emplace m k w).1 k = some w := by
  rw [UMap.find?_emplace', if_pos ⟨rfl, (UMap.find?_eq_none_iff _ _).2 ((UMap.count_eq_false_iff _ _).1 hk)⟩]

theorem back {m : List (Int × Int)} {k : Int} (hk : UMap.count m k = false) (w : Int) {i v : Int}
    (h : UMap.find? (UMap.emplace m k w).1 i = some v) : UMap.find? m i = some v ∨ (i = k ∧ v = w) := by
  rw [UMap.find?_emplace'] at h
  by_cases hi : i = k ∧ UMap.find? m k = none
  · rw [if_pos hi] at h
    exact .inr ⟨hi.1, by simpa using h.symm⟩
  · rw [if_neg hi] at h
    exact .inl h

theorem count_some {m : List (Int × Int)} {k : Int} : UMap.count m k = true ↔ ∃ v, UMap.find? m k = some v := by
  rw [← UMap.find?_isSome_eq_count, Option.isSome_iff_exists]

theorem ensureNet_spec {gs : List (Group P)} {s : St P} (hi : Inv gs s) {g : Group P} (ha : Agree (gs ++ [g])) :
    ∃ c m, ensureNet s g.head = .ok { s with coll := c, netMap := m } ∧ Net.Inv c ∧ c.uid ≤ s.coll.uid + 1 ∧
      (∀ e ∈ s.coll.nets, e ∈ c.nets) ∧ (∀ i v, UMap.find? s.netMap i = some v → UMap.find? m i = some v) ∧
      (∃ e ∈ c.nets, e.1 = g.head.netName ∧ UMap.find? m g.head.netId = some e.2.id) ∧
      (∀ i, UMap.count m i = true → UMap.count s.netMap i = true ∨ i = g.head.netId) ∧
      (∀ n ∈ UMap.keys c.nets, n ∈ UMap.keys s.coll.nets ∨ n = g.head.netName) := by
  unfold ensureNet
  by_cases hc : UMap.count s.netMap g.head.netId = true
  · rw [if_pos hc]
    refine ⟨s.coll, s.netMap, rfl, hi.coll, by omega, fun e he => he, fun i v h => h, ?_, fun i h => .inl h, fun n h => .inl h⟩
    obtain ⟨h, hg, he⟩ := hi.netKey _ hc
    obtain ⟨e, e1, e2, e3⟩ := hi.nets h hg
    exact ⟨e, e1, e2.trans ((ha.net h (by simp [hg]) g (by simp)).1 he), by rw [← he]; exact e3⟩
  · rw [if_neg hc]
    have hc' : UMap.count s.netMap g.head.netId = false := by simpa using hc
    have hn : UMap.count s.coll.nets g.head.netName = false := by
      rw [UMap.count_eq_false_iff]
      intro hm
      obtain ⟨h, hg, he⟩ := hi.netName _ hm
      apply hc
      obtain ⟨e, _, _, e3⟩ := hi.nets h hg
      rw [count_some]
      exact ⟨_, by rw [← (ha.net h (by simp [hg]) g (by simp)).2 he]; exact e3⟩
    have he : Net.createNet s.coll g.head.netName =
        (⟨(UMap.emplace s.coll.nets g.head.netName ⟨g.head.netName, Net.uidValue s.coll.uid⟩).1, s.coll.uid + 1, none⟩, some ⟨g.head.netName, Net.uidValue s.coll.uid⟩) := by
      unfold Net.createNet
      rw [if_neg (by simp [hn])]
    rw [he]
    have hem : (UMap.emplace s.coll.nets g.head.netName (⟨g.head.netName, Net.uidValue s.coll.uid⟩ : Net.Net)).1 =
        s.coll.nets ++ [(g.head.netName, ⟨g.head.netName, Net.uidValue s.coll.uid⟩)] := by simp [UMap.emplace, hn]
    refine ⟨_, _, rfl, Net.inv_push hi.coll _ hn, le_refl _, ?_, fun i v h => keep hc' _ h, ?_, ?_, ?_⟩
    · intro e h
      simp only [hem]
      exact List.mem_append_left _ h
    · exact ⟨(g.head.netName, ⟨g.head.netName, Net.uidValue s.coll.uid⟩), by simp only [hem]; simp, rfl, fresh hc' _⟩
    · intro i h
      rw [count_some] at h
      obtain ⟨v, hv⟩ := h
      rcases back hc' _ hv with h | ⟨h, _⟩
      · exact .inl (count_some.2 ⟨v, h⟩)
      · exact .inr h
    · intro n h
      simp only [hem, UMap.keys, List.map_append, List.map_cons, List.map_nil, List.mem_append, List.mem_singleton] at h
      exact h

/-- placing a group on a net that is there -/
theorem inv_net {gs : List (Group P)} {s : St P} (hi : Inv gs s) {c : Net.Coll} {m : List (Int × Int)} (h1 : Net.Inv c)
    (h2 : c.uid ≤ s.coll.uid + 1) (h3 : ∀ e ∈ s.coll.nets, e ∈ c.nets)
    (h4 : ∀ i v, UMap.find? s.netMap i = some v → UMap.find? m i = some v) {f : Group P → Int}
    (hf : ∀ g ∈ gs, g.head.isVia = false → f g = (UMap.find? s.lyrMap g.head.layerId).getD 0) :
    s.geoms = (gs.filter fun g => !g.head.isVia).map fun g => ⟨f g, (UMap.find? m g.head.netId).getD 0, g.shape⟩ := by
  rw [hi.geoms]
  refine List.map_congr_left fun g hg => ?_
  rw [List.mem_filter] at hg
  obtain ⟨e, _, _, e3⟩ := hi.nets g hg.1
  rw [e3, h4 _ _ e3, hf g hg.1 (by simpa using hg.2)]

theorem ensureLayer_spec {gs : List (Group P)} {s : St P} (hi : Inv gs s) {g : Group P} (ha : Agree (gs ++ [g])) (hv : g.head.isVia = false)
    (c : Net.Coll) (nm : List (Int × Int)) :
    ∃ ls lm sm, ensureLayer { s with coll := c, netMap := nm } g.head = { s with coll := c, netMap := nm, layers := ls, lyrMap := lm, sigMap := sm } ∧
      (∀ i v, UMap.find? s.lyrMap i = some v → UMap.find? lm i = some v) ∧
      (∀ (k : Nat) l, s.layers[k]? = some l → ls[k]? = some l) ∧
      (∃ (k : Nat) (l : Layer.Lyr), UMap.find? lm g.head.layerId = some (k : Int) ∧ ls[k]? = some l ∧ l.name = g.head.lyrName) ∧
      (∀ i v, UMap.find? lm i = some v → ((∃ h ∈ gs ++ [g], h.head.isVia = false ∧ h.head.layerId = i) ∧ v < (ls.length : Int))) ∧
      (∀ i j v, UMap.find? lm i = some v → UMap.find? lm j = some v → i = j) ∧
      (∀ (k : Nat), k < ls.length → ∃ i, UMap.find? lm i = some (k : Int)) ∧
      (∀ h ∈ gs ++ [g], h.head.isVia = false → UMap.find? sm h.head.sigLyr1 = some h.head.layerId) ∧
      (∀ i, UMap.count sm i = true → ∃ h ∈ gs ++ [g], h.head.isVia = false ∧ h.head.sigLyr1 = i) := by
  have hsig : ∃ sm, (∀ t : St P, t.sigMap = s.sigMap → (if UMap.count t.sigMap g.head.sigLyr1 then t else
        { t with sigMap := (UMap.emplace t.sigMap g.head.sigLyr1 g.head.layerId).1 }) = { t with sigMap := sm }) ∧
      (∀ h ∈ gs ++ [g], h.head.isVia = false → UMap.find? sm h.head.sigLyr1 = some h.head.layerId) ∧
      (∀ i, UMap.count sm i = true → ∃ h ∈ gs ++ [g], h.head.isVia = false ∧ h.head.sigLyr1 = i) := by
    by_cases hc : UMap.count s.sigMap g.head.sigLyr1 = true
    · refine ⟨s.sigMap, ?_, ?_, ?_⟩
      · intro t ht
        rw [ht, if_pos hc, ← ht]
      · intro h hh hh'
        rcases List.mem_append.1 hh with hh | hh
        · exact hi.sig h hh hh'
        · rw [List.mem_singleton] at hh
          subst hh
          obtain ⟨h', k1, k2, k3⟩ := hi.sigKey _ hc
          rw [← k3, hi.sig h' k1 k2, ha.sig h' (by simp [k1]) h (by simp) k2 hv k3]
      · intro i h
        obtain ⟨h', k1, k2⟩ := hi.sigKey i h
        exact ⟨h', by simp [k1], k2⟩
    · have hc' : UMap.count s.sigMap g.head.sigLyr1 = false := by simpa using hc
      refine ⟨(UMap.emplace s.sigMap g.head.sigLyr1 g.head.layerId).1, ?_, ?_, ?_⟩
      · intro t ht
        rw [ht, if_neg hc]
      · intro h hh hh'
        rcases List.mem_append.1 hh with hh | hh
        · exact keep hc' _ (hi.sig h hh hh')
        · rw [List.mem_singleton] at hh
          subst hh
          exact fresh hc' _
      · intro i h
        obtain ⟨v, hv'⟩ := count_some.1 h
        rcases back hc' _ hv' with h | ⟨h, _⟩
        · obtain ⟨h', k1, k2⟩ := hi.sigKey i (count_some.2 ⟨_, h⟩)
          exact ⟨h', by simp [k1], k2⟩
        · exact ⟨g, by simp, hv, h.symm⟩
  obtain ⟨sm, hs1, hs2, hs3⟩ := hsig
  unfold ensureLayer
  by_cases hc : UMap.count s.lyrMap g.head.layerId = true
  · simp only [hc, if_true]
    refine ⟨s.layers, s.lyrMap, sm, hs1 { s with coll := c, netMap := nm } rfl, fun i v h => h, fun k l h => h, ?_, ?_, hi.lyrInj, hi.count, hs2, hs3⟩
    · obtain ⟨v, hv'⟩ := count_some.1 hc
      obtain ⟨⟨h, k1, k2, k3⟩, _⟩ := hi.lyrKey _ _ hv'
      obtain ⟨k, l, e1, e2, e3⟩ := hi.lyrs h k1 k2
      exact ⟨k, l, by rw [← k3]; exact e1, e2, by rw [e3]; exact ha.lyr h (by simp [k1]) g (by simp) k2 hv k3⟩
    · intro i v h
      obtain ⟨⟨h, k1, k2⟩, k3⟩ := hi.lyrKey i v h
      exact ⟨⟨h, by simp [k1], k2⟩, k3⟩
  · have hc' : UMap.count s.lyrMap g.head.layerId = false := by simpa using hc
    simp only [hc', Bool.false_eq_true, if_false, Layer.append]
    refine ⟨_, _, sm, hs1 { s with
      coll := c
      netMap := nm
      layers := s.layers ++ [⟨g.head.lyrName, .conducting, (s.layers.length : Int), 0⟩]
      lyrMap := (UMap.emplace s.lyrMap g.head.layerId (s.layers.length : Int)).1 } rfl, fun i v h => keep hc' _ h, ?_, ?_, ?_, ?_, ?_, hs2, hs3⟩
    · intro k l h
      rw [List.getElem?_append_left (List.getElem?_eq_some_iff.1 h).1]
      exact h
    · exact ⟨s.layers.length, _, fresh hc' _, List.getElem?_concat_length .., rfl⟩
    · intro i v h
      rcases back hc' _ h with h | ⟨h, h'⟩
      · obtain ⟨⟨h, k1, k2⟩, k3⟩ := hi.lyrKey i v h
        exact ⟨⟨h, by simp [k1], k2⟩, by simp; omega⟩
      · exact ⟨⟨g, by simp, hv, h.symm⟩, by simp; omega⟩
    · intro i j v h h'
      rcases back hc' _ h with h | ⟨h1, h2⟩ <;> rcases back hc' _ h' with h' | ⟨h1', h2'⟩
      · exact hi.lyrInj i j v h h'
      · have := (hi.lyrKey i v h).2
        omega
      · have := (hi.lyrKey j v h').2
        omega
      · rw [h1, h1']
    · intro k hk
      simp only [List.length_append, List.length_singleton] at hk
      rcases Nat.lt_succ_iff_lt_or_eq.1 hk with hk | rfl
      · obtain ⟨i, h⟩ := hi.count k hk
        exact ⟨i, keep hc' _ h⟩
      · exact ⟨_, fresh hc' _⟩

theorem place_spec {gs : List (Group P)} {s : St P} (hi : Inv gs s) {g : Group P} (ha : Agree (gs ++ [g])) :
    ∃ s', place s g.head g.shape = .ok s' ∧ Inv (gs ++ [g]) s' := by
  obtain ⟨c, m, h0, h1, h2, h3, h4, ⟨e, e1, e2, e3⟩, h6, h7⟩ := ensureNet_spec hi ha
  have hnets : ∀ h ∈ gs ++ [g], ∃ e ∈ c.nets, e.1 = h.head.netName ∧ UMap.find? m h.head.netId = some e.2.id := by
    intro h hh
    rcases List.mem_append.1 hh with hh | hh
    · obtain ⟨e, k1, k2, k3⟩ := hi.nets h hh
      exact ⟨e, h3 e k1, k2, h4 _ _ k3⟩
    · rw [List.mem_singleton] at hh
      subst hh
      exact ⟨e, e1, e2, e3⟩
  have hkey : ∀ i, UMap.count m i = true → ∃ h ∈ gs ++ [g], h.head.netId = i := by
    intro i h
    rcases h6 i h with h | h
    · obtain ⟨x, k1, k2⟩ := hi.netKey i h
      exact ⟨x, by simp [k1], k2⟩
    · exact ⟨g, by simp, h.symm⟩
  have hname : ∀ n ∈ UMap.keys c.nets, ∃ h ∈ gs ++ [g], h.head.netName = n := by
    intro n h
    rcases h7 n h with h | h
    · obtain ⟨x, k1, k2⟩ := hi.netName n h
      exact ⟨x, by simp [k1], k2⟩
    · exact ⟨g, by simp, h.symm⟩
  have huid : c.uid ≤ (gs ++ [g]).length := by
    have := hi.uid
    simp only [List.length_append, List.length_singleton]
    omega
  unfold place
  rw [h0, Res.bind_ok]
  cases hv : g.head.isVia with
  | true =>
    rw [if_pos rfl]
    refine ⟨_, rfl, h1, huid, hnets, hkey, hname, ?_, ?_, hi.lyrInj, hi.count, ?_, ?_, ?_, ?_⟩
    · intro h hh hh'
      rcases List.mem_append.1 hh with hh | hh
      · exact hi.lyrs h hh hh'
      · rw [List.mem_singleton] at hh
        subst hh
        rw [hv] at hh'
        cases hh'
    · intro i v h
      obtain ⟨⟨h, k1, k2⟩, k3⟩ := hi.lyrKey i v h
      exact ⟨⟨h, by simp [k1], k2⟩, k3⟩
    · intro h hh hh'
      rcases List.mem_append.1 hh with hh | hh
      · exact hi.sig h hh hh'
      · rw [List.mem_singleton] at hh
        subst hh
        rw [hv] at hh'
        cases hh'
    · intro i h
      obtain ⟨x, k1, k2⟩ := hi.sigKey i h
      exact ⟨x, by simp [k1], k2⟩
    · simp only [List.filter_append, hv, List.filter_cons, Bool.not_true, Bool.false_eq_true, if_false, List.filter_nil, List.append_nil]
      exact inv_net hi h1 h2 h3 h4 (fun _ _ _ => rfl)
    · simp only [List.filter_append, hv, List.filter_cons, if_true, List.filter_nil, List.map_append, List.map_cons, List.map_nil]
      rw [hi.vias]
  | false =>
    rw [if_neg (by simp)]
    obtain ⟨ls, lm, sm, l0, l1, l2, ⟨k, l, k1, k2, k3⟩, l4, l5, l6, l7, l8⟩ := ensureLayer_spec hi ha hv c m
    simp only [l0]
    have hl : atKey lm g.head.layerId = .ok (k : Int) := by simp [atKey, k1]
    have hn : atKey m g.head.netId = .ok e.2.id := by simp [atKey, e3]
    rw [hl, Res.bind_ok, hn, Res.bind_ok]
    refine ⟨_, rfl, h1, huid, hnets, hkey, hname, ?_, l4, l5, l6, l7, l8, ?_, ?_⟩
    · intro h hh hh'
      rcases List.mem_append.1 hh with hh | hh
      · obtain ⟨k, l, e1, e2, e3⟩ := hi.lyrs h hh hh'
        exact ⟨k, l, l1 _ _ e1, l2 _ _ e2, e3⟩
      · rw [List.mem_singleton] at hh
        subst hh
        exact ⟨k, l, k1, k2, k3⟩
    · simp only [List.filter_append, hv, List.filter_cons, Bool.not_false, if_true, List.filter_nil, List.map_append, List.map_cons, List.map_nil]
      rw [inv_net hi h1 h2 h3 h4 (f := fun g => (UMap.find? lm g.head.layerId).getD 0), k1, e3]
      · rfl
      · intro h hh hh'
        obtain ⟨k, l, e1, e2, e3⟩ := hi.lyrs h hh hh'
        rw [e1, l1 _ _ e1]
    · simp only [List.filter_append, hv, List.filter_cons, Bool.false_eq_true, if_false, List.filter_nil, List.append_nil]
      exact hi.vias

theorem Agree.pre {a b : List (Group P)} (h : Agree (a ++ b)) : Agree a where
  net g hg k hk := h.net g (by simp [hg]) k (by simp [hk])
  lyr g hg k hk := h.lyr g (by simp [hg]) k (by simp [hk])
  sig g hg k hk := h.sig g (by simp [hg]) k (by simp [hk])

theorem placeAll_spec (gs : List (Group P)) : ∀ (done : List (Group P)) (s : St P), Inv done s → Agree (done ++ gs) →
    ∃ s', placeAll s gs = .ok s' ∧ Inv (done ++ gs) s' := by
  induction gs with
  | nil =>
    intro done s hi _
    exact ⟨s, rfl, by simpa using hi⟩
  | cons g gs ih =>
    intro done s hi ha
    have e : done ++ g :: gs = (done ++ [g]) ++ gs := by simp
    rw [e] at ha ⊢
    obtain ⟨s', h1, h2⟩ := place_spec hi ha.pre
    rw [placeAll, h1, Res.bind_ok]
    exact ih _ _ h2 ha

theorem walk_lead (lead : List Rec) (hl : ∀ r ∈ lead, r.isHole = true) (rest : List Rec) (s : St P) (pts : List P) (n : Nat) :
    walk (n + lead.length) s (lead ++ rest) pts = walk n s rest pts := by
  induction lead with
  | nil => rfl
  | cons r lead ih =>
    rw [List.length_cons, ← Nat.add_assoc, List.cons_append, walk, if_pos (hl r (by simp))]
    exact ih fun x hx => hl x (by simp [hx])

/-- the walk over all the records, the first being holes without outline -/
theorem walk_all (lead : List Rec) (hl : ∀ r ∈ lead, r.isHole = true) (gs : List (Group P)) (hf : ∀ g ∈ gs, g.Fits) (extra : List P) (s : St P) :
    walk (lead ++ gs.flatMap Group.recs).length s (lead ++ gs.flatMap Group.recs) (gs.flatMap Group.pts ++ extra) = placeAll s gs := by
  rw [List.length_append, Nat.add_comm, walk_lead lead hl, walk_groups gs hf]
  clear hf
  induction gs with
  | nil => simp
  | cons g gs ih => simp only [List.flatMap_cons, List.length_append, List.length_cons, Group.recs]; omega

theorem run_ok {n : Nat} {pts : List P} {x : List P × List P} (h : run n pts = .ok x) : pts = x.1 ++ x.2 ∧ n = x.1.length := by
  unfold run at h
  by_cases hn : n ≤ pts.length
  · rw [if_pos hn, Res.ok.injEq] at h
    subst h
    simp [hn]
  · rw [if_neg hn] at h
    cases h

theorem holes_ok : ∀ (rs : List Rec) (pts : List P) (y : List (List P) × List Rec × List P), holes rs pts = .ok y →
    ∃ hs : List (Rec × List P), (∀ h ∈ hs, h.1.isHole = true ∧ h.1.points = h.2.length) ∧ rs = hs.map Prod.fst ++ y.2.1 ∧
      pts = hs.flatMap Prod.snd ++ y.2.2 ∧ y.1 = hs.map Prod.snd ∧ ∀ r, y.2.1.head? = some r → r.isHole = false := by
  intro rs
  induction rs with
  | nil =>
    intro pts y h
    rw [holes, Res.ok.injEq] at h
    subst h
    exact ⟨[], by simp⟩
  | cons r rs ih =>
    intro pts y h
    rw [holes] at h
    by_cases hr : r.isHole = true
    · rw [if_pos hr] at h
      cases h1 : run r.points pts with
      | ub => rw [h1] at h; cases h
      | exn => rw [h1] at h; cases h
      | ok x =>
        rw [h1, Res.bind_ok] at h
        cases h2 : holes rs x.2 with
        | ub => rw [h2] at h; cases h
        | exn => rw [h2] at h; cases h
        | ok z =>
          rw [h2, Res.bind_ok, Res.ok.injEq] at h
          subst h
          obtain ⟨hs, k1, k2, k3, k4, k5⟩ := ih _ _ h2
          obtain ⟨e1, e2⟩ := run_ok h1
          refine ⟨(r, x.1) :: hs, ?_, ?_, ?_, ?_, k5⟩
          · intro h hh
            rcases List.mem_cons.1 hh with rfl | hh
            · exact ⟨hr, e2⟩
            · exact k1 h hh
          · simp only [List.map_cons, List.cons_append, ← k2]
          · simp only [List.flatMap_cons, List.append_assoc, ← k3]
            exact e1
          · simp only [List.map_cons, k4]
    · rw [if_neg hr, Res.ok.injEq] at h
      subst h
      refine ⟨[], by simp, rfl, rfl, rfl, ?_⟩
      intro x hx
      simp only [List.head?_cons, Option.some.injEq] at hx
      rw [← hx]
      simpa using hr

theorem walk_ok : ∀ (n : Nat) (recs : List Rec) (pts : List P) (s s' : St P), recs.length ≤ n → walk n s recs pts = .ok s' →
    ∃ (lead : List Rec) (gs : List (Group P)) (extra : List P), (∀ r ∈ lead, r.isHole = true) ∧ recs = lead ++ gs.flatMap Group.recs ∧ pts = gs.flatMap Group.pts ++ extra ∧
      (∀ g ∈ gs, g.Fits) ∧ placeAll s gs = .ok s' := by
  intro n
  induction n with
  | zero =>
    intro recs pts s s' hn h
    have : recs = [] := List.eq_nil_of_length_eq_zero (by omega)
    subst this
    exact ⟨[], [], pts, by simp, rfl, rfl, by simp, h⟩
  | succ n ih =>
    intro recs pts s s' hn h
    cases recs with
    | nil => exact ⟨[], [], pts, by simp, rfl, rfl, by simp, h⟩
    | cons r rs =>
      rw [walk] at h
      simp only [List.length_cons] at hn
      by_cases hr : r.isHole = true
      · rw [if_pos hr] at h
        obtain ⟨lead, gs, extra, k1, k2, k3, k4, k5⟩ := ih rs pts s s' (by omega) h
        refine ⟨r :: lead, gs, extra, ?_, by rw [k2]; rfl, k3, k4, k5⟩
        intro x hx
        rcases List.mem_cons.1 hx with rfl | hx
        · exact hr
        · exact k1 x hx
      · rw [if_neg hr] at h
        cases h1 : run r.points pts with
        | ub => rw [h1] at h; cases h
        | exn => rw [h1] at h; cases h
        | ok x =>
          rw [h1, Res.bind_ok] at h
          cases h2 : holes rs x.2 with
          | ub => rw [h2] at h; cases h
          | exn => rw [h2] at h; cases h
          | ok y =>
            rw [h2, Res.bind_ok] at h
            cases h3 : place s r ⟨x.1, y.1⟩ with
            | ub => rw [h3] at h; cases h
            | exn => rw [h3] at h; cases h
            | ok t =>
              rw [h3, Res.bind_ok] at h
              obtain ⟨hs, j1, j2, j3, j4, j5⟩ := holes_ok _ _ _ h2
              obtain ⟨e1, e2⟩ := run_ok h1
              obtain ⟨lead, gs, extra, k1, k2, k3, k4, k5⟩ := ih y.2.1 y.2.2 t s' (by
                have := congrArg List.length j2
                simp only [List.length_append] at this
                omega) h
              have hl : lead = [] := by
                cases lead with
                | nil => rfl
                | cons a l =>
                  have := j5 a (by rw [k2]; rfl)
                  rw [k1 a (by simp)] at this
                  cases this
              subst hl
              refine ⟨[], ⟨r, x.1, hs⟩ :: gs, extra, by simp, ?_, ?_, ?_, ?_⟩
              · simp only [List.nil_append] at k2
                simp only [List.nil_append, List.flatMap_cons, Group.recs, List.cons_append, List.cons.injEq, true_and]
                rw [j2]
                congr 1
              · simp only [List.flatMap_cons, Group.pts, List.append_assoc]
                rw [e1, j3, k3]
              · intro g hg
                rcases List.mem_cons.1 hg with rfl | hg
                · exact ⟨by simpa using hr, e2, j1⟩
                · exact k4 g hg
              · rw [placeAll]
                have : (Group.shape ⟨r, x.1, hs⟩ : Shape P) = ⟨x.1, y.1⟩ := by rw [j4]; rfl
                rw [this, h3, Res.bind_ok]
                exact k5

theorem ensureNet_keep {s s' : St P} {r : Rec} (h : ensureNet s r = .ok s') : s'.geoms = s.geoms ∧ s'.vias = s.vias := by
  unfold ensureNet at h
  split at h
  · rw [Res.ok.injEq] at h
    subst h
    exact ⟨rfl, rfl⟩
  · split at h
    · cases h
    · rw [Res.ok.injEq] at h
      subst h
      exact ⟨rfl, rfl⟩

theorem place_shapes {s s' : St P} {r : Rec} {sh : Shape P} (h : place s r sh = .ok s') :
    s'.geoms.map Geom.shape = s.geoms.map Geom.shape ++ (if r.isVia then [] else [sh]) ∧
    s'.vias.map (fun v => v.2.2.2) = s.vias.map (fun v => v.2.2.2) ++ (if r.isVia then [sh] else []) := by
  unfold place at h
  cases h1 : ensureNet s r with
  | ub => rw [h1] at h; cases h
  | exn => rw [h1] at h; cases h
  | ok t =>
    rw [h1, Res.bind_ok] at h
    obtain ⟨e1, e2⟩ := ensureNet_keep h1
    have hk : (ensureLayer t r).geoms = t.geoms ∧ (ensureLayer t r).vias = t.vias := by
      unfold ensureLayer
      simp only
      by_cases ha : UMap.count t.lyrMap r.layerId = true
      · simp only [ha, if_true]
        split <;> exact ⟨rfl, rfl⟩
      · simp only [ha, if_false, Bool.false_eq_true]
        split <;> exact ⟨rfl, rfl⟩
    cases hv : r.isVia with
    | true =>
      rw [hv, if_pos rfl, Res.ok.injEq] at h
      subst h
      simp [e1, e2]
    | false =>
      rw [hv, if_neg (by simp)] at h
      simp only at h
      cases h2 : atKey (ensureLayer t r).lyrMap r.layerId with
      | ub => rw [h2] at h; cases h
      | exn => rw [h2] at h; cases h
      | ok l =>
        rw [h2, Res.bind_ok] at h
        cases h3 : atKey (ensureLayer t r).netMap r.netId with
        | ub => rw [h3] at h; cases h
        | exn => rw [h3] at h; cases h
        | ok m =>
          rw [h3, Res.bind_ok, Res.ok.injEq] at h
          subst h
          simp [hk.1, hk.2, e1, e2]

theorem placeAll_shapes : ∀ (gs : List (Group P)) (s s' : St P), placeAll s gs = .ok s' →
    s'.geoms.map Geom.shape = s.geoms.map Geom.shape ++ (gs.filter fun g => !g.head.isVia).map Group.shape ∧
    s'.vias.map (fun v => v.2.2.2) = s.vias.map (fun v => v.2.2.2) ++ (gs.filter fun g => g.head.isVia).map Group.shape := by
  intro gs
  induction gs with
  | nil =>
    intro s s' h
    rw [placeAll, Res.ok.injEq] at h
    subst h
    simp
  | cons g gs ih =>
    intro s s' h
    rw [placeAll] at h
    cases h1 : place s g.head g.shape with
    | ub => rw [h1] at h; cases h
    | exn => rw [h1] at h; cases h
    | ok t =>
      rw [h1, Res.bind_ok] at h
      obtain ⟨a, b⟩ := ih t s' h
      obtain ⟨c, d⟩ := place_shapes h1
      rw [a, b, c, d]
      cases hv : g.head.isVia <;> simp [hv]

/-- C52: whenever the import goes through, the records are holes without outline, which take no points, and then outlines each
with its holes, and the points are those of the outlines and holes in this order with the counts of the records, followed by points
not used.  The geometries are the shapes of the outlines that are no vias, in order, the vias the others. -/
theorem c52_shapes {recs : List Rec} {pts : List P} {s : St P} (h : walk recs.length {} recs pts = .ok s) :
    ∃ (lead : List Rec) (gs : List (Group P)) (extra : List P), (∀ r ∈ lead, r.isHole = true) ∧ recs = lead ++ gs.flatMap Group.recs ∧ pts = gs.flatMap Group.pts ++ extra ∧
      (∀ g ∈ gs, g.Fits) ∧ s.geoms.map Geom.shape = (gs.filter fun g => !g.head.isVia).map Group.shape ∧
      s.vias.map (fun v => v.2.2.2) = (gs.filter fun g => g.head.isVia).map Group.shape := by
  obtain ⟨lead, gs, extra, k1, k2, k3, k4, k5⟩ := walk_ok _ recs pts {} s (le_refl _) h
  obtain ⟨a, b⟩ := placeAll_shapes gs {} s k5
  exact ⟨lead, gs, extra, k1, k2, k3, k4, by simpa using a, by simpa using b⟩

/-- C52: and the walk goes through for all records and points of this form in which net ids and names, layer ids and names, and
signal layers and layer ids belong together -/
theorem c52_reads {lead : List Rec} (hl : ∀ r ∈ lead, r.isHole = true) {gs : List (Group P)} (hf : ∀ g ∈ gs, g.Fits) (ha : Agree gs)
    (extra : List P) : ∃ s, walk (lead ++ gs.flatMap Group.recs).length {} (lead ++ gs.flatMap Group.recs) (gs.flatMap Group.pts ++ extra) = .ok s := by
  rw [walk_all lead hl gs hf]
  obtain ⟨s, h, _⟩ := placeAll_spec gs [] {} inv_empty (by simpa using ha)
  exact ⟨s, h⟩

/-- the points the records ask for: those of the holes without outline are not taken -/
def needed (recs : List Rec) : Nat := ((recs.dropWhile fun r => r.isHole).map Rec.points).sum

theorem needed_groups {lead : List Rec} (hl : ∀ r ∈ lead, r.isHole = true) {gs : List (Group P)} (hf : ∀ g ∈ gs, g.Fits) :
    needed (lead ++ gs.flatMap Group.recs) = (gs.flatMap Group.pts).length := by
  unfold needed
  have h1 : (lead ++ gs.flatMap Group.recs).dropWhile (fun r => r.isHole) = gs.flatMap Group.recs := by
    induction lead with
    | nil =>
      cases gs with
      | nil => rfl
      | cons g gs =>
        simp only [List.nil_append, List.flatMap_cons, Group.recs, List.cons_append]
        rw [List.dropWhile_cons_of_neg (by simp [(hf g (by simp)).1])]
    | cons r lead ih =>
      rw [List.cons_append, List.dropWhile_cons_of_pos (by simp [hl r (by simp)])]
      exact ih fun x hx => hl x (by simp [hx])
  rw [h1]
  clear h1
  induction gs with
  | nil => rfl
  | cons g gs ih =>
    obtain ⟨_, h2, h3⟩ := hf g (by simp)
    have h4 : ((g.holes.map Prod.fst).map Rec.points).sum = (g.holes.flatMap Prod.snd).length := by
      generalize g.holes = hs at h3
      induction hs with
      | nil => rfl
      | cons h hs ih =>
        simp only [List.map_cons, List.sum_cons, List.flatMap_cons, List.length_append, (h3 h (by simp)).2]
        rw [ih fun x hx => h3 x (by simp [hx])]
    simp only [List.flatMap_cons, List.map_append, List.sum_append, List.length_append, ih fun x hx => hf x (by simp [hx]), Group.recs, Group.pts,
      List.map_cons, List.sum_cons, h2, h4]

/-- C52 fails for short point files: with fewer points than the records ask for the import does not go through -/
theorem c52_short_refuted {recs : List Rec} {pts : List P} (h : pts.length < needed recs) (s : St P) :
    walk recs.length {} recs pts ≠ .ok s := by
  intro hw
  obtain ⟨lead, gs, extra, k1, rfl, rfl, k4, _⟩ := c52_shapes hw
  rw [needed_groups k1 k4] at h
  simp only [List.length_append] at h
  omega

/-- C52 fails for a hole before the first outline: its points go to the outline -/
theorem c52_lead_refuted (r : Rec) (hr : r.isHole = true) (g : Group P) (hg : g.Fits) (a b : List P) (ha : a.length = r.points)
    (hb : b.length = g.outline.length) (hv : g.head.isVia = false) (hh : g.holes = []) :
    ∃ s, walk 2 {} [r, g.head] (a ++ b) = .ok s ∧ s.geoms.map Geom.shape = [⟨(a ++ b).take b.length, []⟩] := by
  have hag : Agree [(⟨g.head, (a ++ b).take b.length, []⟩ : Group P)] := by constructor <;> simp
  have hfit : ∀ x ∈ [(⟨g.head, (a ++ b).take b.length, []⟩ : Group P)], x.Fits := by
    intro x hx
    rw [List.mem_singleton] at hx
    subst hx
    exact ⟨hg.1, by rw [hg.2.1]; simp [hb], by simp⟩
  obtain ⟨s, hs⟩ := c52_reads (lead := [r]) (by simpa using hr) hfit hag ((a ++ b).drop b.length)
  have e1 : [r] ++ [(⟨g.head, (a ++ b).take b.length, []⟩ : Group P)].flatMap Group.recs = [r, g.head] := rfl
  have e2 : [(⟨g.head, (a ++ b).take b.length, []⟩ : Group P)].flatMap Group.pts ++ (a ++ b).drop b.length = a ++ b := by
    simp only [List.flatMap_cons, Group.pts, List.flatMap_nil, List.append_nil]
    exact List.take_append_drop ..
  have hs' := hs
  rw [e1, e2] at hs'
  refine ⟨s, hs', ?_⟩
  rw [walk_all [r] (by simpa using hr) _ hfit] at hs
  have := (placeAll_shapes _ _ _ hs).1
  rw [this]
  simp [hv, Group.shape]

/-! ## C73 -/

/-- net `id` of the import is called `name` -/
def NetCalled (s : St P) (id : Int) (name : String) : Prop := ∃ e ∈ s.coll.nets, e.1 = name ∧ e.2.name = name ∧ e.2.id = id

/-- layer `id` of the import is called `name` -/
def LayerCalled (s : St P) (id : Int) (name : String) : Prop := ∃ (k : Nat) (l : Layer.Lyr), id = (k : Int) ∧ s.layers[k]? = some l ∧ l.name = name

theorem atKey_ok {m : List (Int × Int)} {k v : Int} (h : UMap.find? m k = some v) : atKey m k = .ok v := by
  unfold atKey
  rw [h]

theorem makeVias_spec {gs : List (Group P)} {s : St P} (hi : Inv gs s) : ∀ (vs : List (Group P)) (i : Nat), (∀ v ∈ vs, v ∈ gs) →
    (∀ v ∈ vs, (∃ a ∈ gs, a.head.isVia = false ∧ a.head.sigLyr1 = v.head.sigLyr1) ∧ ∃ b ∈ gs, b.head.isVia = false ∧ b.head.sigLyr1 = v.head.sigLyr2) →
    ∃ insts, makeVias s i (vs.map fun g => (g.head.netId, g.head.sigLyr1, g.head.sigLyr2, g.shape)) = .ok insts ∧ insts.length = vs.length ∧
      ∀ (k : Nat) (v : Group P), vs[k]? = some v → ∃ x, insts[k]? = some x ∧ x.shape = v.shape ∧ x.name = "via_" ++ toString (i + k) ∧
        NetCalled s x.net v.head.netName ∧
        (∀ a ∈ gs, a.head.isVia = false → a.head.sigLyr1 = v.head.sigLyr1 → LayerCalled s x.top a.head.lyrName) ∧
        (∀ b ∈ gs, b.head.isVia = false → b.head.sigLyr1 = v.head.sigLyr2 → LayerCalled s x.bot b.head.lyrName) := by
  intro vs
  induction vs with
  | nil => intro i _ _; exact ⟨[], rfl, rfl, by simp⟩
  | cons v vs ih =>
    intro i hm hs
    obtain ⟨insts, h1, h2, h3⟩ := ih (i + 1) (fun x hx => hm x (by simp [hx])) fun x hx => hs x (by simp [hx])
    obtain ⟨⟨a, a1, a2, a3⟩, b, b1, b2, b3⟩ := hs v (by simp)
    obtain ⟨e, e1, e2, e3⟩ := hi.nets v (hm v (by simp))
    have sa := hi.sig a a1 a2
    have sb := hi.sig b b1 b2
    obtain ⟨ka, la, la1, la2, la3⟩ := hi.lyrs a a1 a2
    obtain ⟨kb, lb, lb1, lb2, lb3⟩ := hi.lyrs b b1 b2
    refine ⟨⟨"via_" ++ toString i, e.2.id, ka, kb, v.shape⟩ :: insts, ?_, by simp [h2], ?_⟩
    · rw [List.map_cons, makeVias, atKey_ok e3, Res.bind_ok, ← a3, atKey_ok sa, Res.bind_ok, atKey_ok la1, Res.bind_ok, ← b3, atKey_ok sb, Res.bind_ok,
        atKey_ok lb1, Res.bind_ok, h1, Res.bind_ok]
    · intro k x hx
      cases k with
      | zero =>
        simp only [List.getElem?_cons_zero, Option.some.injEq] at hx
        subst hx
        refine ⟨_, rfl, rfl, rfl, ⟨e, e1, e2, (hi.coll.named e e1).trans e2, rfl⟩, ?_, ?_⟩
        · intro c c1 c2 c3
          obtain ⟨kc, lc, lc1, lc2, lc3⟩ := hi.lyrs c c1 c2
          have : c.head.layerId = a.head.layerId := by
            have := hi.sig c c1 c2
            rw [c3, ← a3, sa, Option.some.injEq] at this
            exact this.symm
          rw [this, la1, Option.some.injEq] at lc1
          exact ⟨kc, lc, lc1, lc2, lc3⟩
        · intro c c1 c2 c3
          obtain ⟨kc, lc, lc1, lc2, lc3⟩ := hi.lyrs c c1 c2
          have : c.head.layerId = b.head.layerId := by
            have := hi.sig c c1 c2
            rw [c3, ← b3, sb, Option.some.injEq] at this
            exact this.symm
          rw [this, lb1, Option.some.injEq] at lc1
          exact ⟨kc, lc, lc1, lc2, lc3⟩
      | succ k =>
        obtain ⟨y, y1, y2, y3, y4⟩ := h3 k x hx
        exact ⟨y, y1, y2, by rw [y3, Nat.add_assoc, Nat.add_comm 1], y4⟩

/-- C73: the import goes through if the records agree, some outline is not a via, and each via names two signal layers that
outlines have.  Each geometry is on the net and the layer its record names, two of them are on the same layer exactly if their layer ids
are the same, and on the same net exactly if the net ids are, and each via is on its net and joins the layers of its two signal layers. -/
theorem c73_import {lead : List Rec} (hl : ∀ r ∈ lead, r.isHole = true) {gs : List (Group P)} (hf : ∀ g ∈ gs, g.Fits) (ha : Agree gs)
    (extra : List P) (hlen : gs.length ≤ 2 ^ 32) (hne : ∃ g ∈ gs, g.head.isVia = false)
    (hvia : ∀ v ∈ gs, v.head.isVia = true → (∃ a ∈ gs, a.head.isVia = false ∧ a.head.sigLyr1 = v.head.sigLyr1) ∧
      ∃ b ∈ gs, b.head.isVia = false ∧ b.head.sigLyr1 = v.head.sigLyr2) :
    ∃ s insts, importDmc (lead ++ gs.flatMap Group.recs) (gs.flatMap Group.pts ++ extra) = .ok (s, insts) ∧
      s.geoms.length = (gs.filter fun g => !g.head.isVia).length ∧ insts.length = (gs.filter fun g => g.head.isVia).length ∧
      (∀ (k : Nat) (g : Group P), (gs.filter fun g => !g.head.isVia)[k]? = some g → ∃ x, s.geoms[k]? = some x ∧ x.shape = g.shape ∧
        NetCalled s x.net g.head.netName ∧ LayerCalled s x.layer g.head.lyrName) ∧
      (∀ (k j : Nat) (g h : Group P) (x y : Geom P), (gs.filter fun g => !g.head.isVia)[k]? = some g → (gs.filter fun g => !g.head.isVia)[j]? = some h →
        s.geoms[k]? = some x → s.geoms[j]? = some y →
        (x.layer = y.layer ↔ g.head.layerId = h.head.layerId) ∧ (x.net = y.net ↔ g.head.netId = h.head.netId)) ∧
      (∀ (k : Nat) (v : Group P), (gs.filter fun g => g.head.isVia)[k]? = some v → ∃ x, insts[k]? = some x ∧ x.shape = v.shape ∧
        x.name = "via_" ++ toString (1 + k) ∧ NetCalled s x.net v.head.netName ∧
        (∀ a ∈ gs, a.head.isVia = false → a.head.sigLyr1 = v.head.sigLyr1 → LayerCalled s x.top a.head.lyrName) ∧
        (∀ b ∈ gs, b.head.isVia = false → b.head.sigLyr1 = v.head.sigLyr2 → LayerCalled s x.bot b.head.lyrName)) := by
  obtain ⟨s, h1, hi⟩ := placeAll_spec gs [] {} inv_empty (by simpa using ha)
  simp only [List.nil_append] at hi
  obtain ⟨insts, m1, m2, m3⟩ := makeVias_spec hi (gs.filter fun g => g.head.isVia) 1 (fun v hv => (List.mem_filter.1 hv).1)
    fun v hv => hvia v (List.mem_filter.1 hv).1 (by simpa using (List.mem_filter.1 hv).2)
  have hgeo : ∀ (k : Nat) (g : Group P), (gs.filter fun g => !g.head.isVia)[k]? = some g → ∃ (e : String × Net.Net) (j : Nat) (l : Layer.Lyr), e ∈ s.coll.nets ∧
      e.1 = g.head.netName ∧ UMap.find? s.lyrMap g.head.layerId = some (j : Int) ∧ s.layers[j]? = some l ∧ l.name = g.head.lyrName ∧
      s.geoms[k]? = some ⟨j, e.2.id, g.shape⟩ := by
    intro k g hg
    have hm := List.mem_filter.1 (List.mem_of_getElem? hg)
    obtain ⟨e, e1, e2, e3⟩ := hi.nets g hm.1
    obtain ⟨j, l, l1, l2, l3⟩ := hi.lyrs g hm.1 (by simpa using hm.2)
    refine ⟨e, j, l, e1, e2, l1, l2, l3, ?_⟩
    rw [hi.geoms, List.getElem?_map, hg, Option.map_some, e3, l1]
    rfl
  refine ⟨s, insts, ?_, ?_, m2, ?_, ?_, m3⟩
  · unfold importDmc
    rw [walk_all lead hl gs hf, h1, Res.bind_ok, hi.vias, m1, Res.bind_ok]
    obtain ⟨g, g1, g2⟩ := hne
    obtain ⟨k, l, _, l2, _⟩ := hi.lyrs g g1 g2
    cases hls : s.layers with
    | nil => rw [hls] at l2; simp at l2
    | cons c rest => rw [Layer.addDefaultDielectric, Res.bind_ok]
  · rw [hi.geoms, List.length_map]
  · intro k g hg
    obtain ⟨e, j, l, e1, e2, l1, l2, l3, hx⟩ := hgeo k g hg
    exact ⟨_, hx, rfl, ⟨e, e1, e2, (hi.coll.named e e1).trans e2, rfl⟩, j, l, rfl, l2, l3⟩
  · intro k j g h x y hg hh hx hy
    obtain ⟨e, i, l, e1, e2, l1, l2, l3, hx'⟩ := hgeo k g hg
    obtain ⟨e', i', l', e1', e2', l1', l2', l3', hy'⟩ := hgeo j h hh
    rw [hx, Option.some.injEq] at hx'
    rw [hy, Option.some.injEq] at hy'
    subst hx' hy'
    have hg' := (List.mem_filter.1 (List.mem_of_getElem? hg)).1
    have hh' := (List.mem_filter.1 (List.mem_of_getElem? hh)).1
    refine ⟨⟨fun he => ?_, fun he => ?_⟩, fun he => ?_, fun he => ?_⟩
    · simp only at he
      rw [← he] at l1'
      exact hi.lyrInj _ _ _ l1 l1'
    · rw [he, l1', Option.some.injEq] at l1
      exact l1.symm
    · have := Net.ids_inj hi.coll (by have := hi.uid; omega) e1 e1' he
      rw [ha.net g hg' h hh', ← e2, ← e2', this]
    · rw [ha.net g hg' h hh', ← e2, ← e2'] at he
      obtain ⟨a, b⟩ := e
      obtain ⟨a', b'⟩ := e'
      simp only at he
      subst he
      have h1 := (UMap.find?_eq_some_iff hi.coll.wf _ _).2 e1
      have h2 := (UMap.find?_eq_some_iff hi.coll.wf _ _).2 e1'
      rw [h1, Option.some.injEq] at h2
      simp only [h2]

/-- C73 fails for net names: two net ids with the same name make the import dereference a null pointer -/
theorem c73_names_refuted (g h : Group P) (hg : g.Fits) (hh : h.Fits) (hid : g.head.netId ≠ h.head.netId) (hn : g.head.netName = h.head.netName)
    (extra : List P) : importDmc ([g, h].flatMap Group.recs) ([g, h].flatMap Group.pts ++ extra) = .ub := by
  unfold importDmc
  have hw := walk_all (P := P) [] (by simp) [g, h] (by intro x hx; simp only [List.mem_cons, List.not_mem_nil, or_false] at hx; rcases hx with rfl | rfl <;> assumption)
    extra {}
  simp only [List.nil_append] at hw
  rw [hw]
  obtain ⟨s, h1, hi⟩ := place_spec (inv_empty (P := P)) (g := g) (by constructor <;> simp)
  rw [placeAll, h1, Res.bind_ok, placeAll]
  have : place s h.head h.shape = .ub := by
    have hc : ¬ UMap.count s.netMap h.head.netId = true := by
      intro hc
      obtain ⟨x, x1, x2⟩ := hi.netKey _ hc
      simp only [List.nil_append, List.mem_singleton] at x1
      subst x1
      exact hid x2
    obtain ⟨e, e1, e2, _⟩ := hi.nets g (by simp)
    have hm : UMap.count s.coll.nets h.head.netName = true := by
      rw [UMap.count_iff_mem_keys, ← hn, ← e2]
      exact List.mem_map_of_mem e1
    unfold place ensureNet Net.createNet
    rw [if_neg hc, if_pos hm]
    rfl
  rw [this]
  rfl

/-- C73 fails for vias to a signal layer without outlines: the import throws -/
theorem c73_via_refuted {gs : List (Group P)} (hf : ∀ g ∈ gs, g.Fits) (ha : Agree gs) (extra : List P) {v : Group P} {rest : List (Group P)}
    (hv : (gs.filter fun g => g.head.isVia) = v :: rest)
    (hno : ∀ a ∈ gs, a.head.isVia = false → a.head.sigLyr1 ≠ v.head.sigLyr1) :
    importDmc (gs.flatMap Group.recs) (gs.flatMap Group.pts ++ extra) = .exn := by
  obtain ⟨s, h1, hi⟩ := placeAll_spec gs [] {} inv_empty (by simpa using ha)
  simp only [List.nil_append] at hi
  have hw := walk_all (P := P) [] (by simp) gs hf extra {}
  simp only [List.nil_append] at hw
  unfold importDmc
  rw [hw, h1, Res.bind_ok, hi.vias, hv, List.map_cons, makeVias]
  have hm : v ∈ gs := (List.mem_filter.1 (by rw [hv]; simp : v ∈ gs.filter fun g => g.head.isVia)).1
  obtain ⟨e, _, _, e3⟩ := hi.nets v hm
  have : atKey s.sigMap v.head.sigLyr1 = .exn := by
    unfold atKey
    cases hc : UMap.find? s.sigMap v.head.sigLyr1 with
    | none => rfl
    | some x =>
      obtain ⟨a, a1, a2, a3⟩ := hi.sigKey _ (count_some.2 ⟨x, hc⟩)
      exact absurd a3 (hno a a1 a2)
  rw [atKey_ok e3, Res.bind_ok, this]
  rfl

/-- C73 fails without any outline that is not a via: no layer is made, and adding dielectric layers to no layers is undefined -/
theorem c73_empty_refuted (recs : List Rec) (hr : ∀ r ∈ recs, r.isHole = true) (pts : List P) : importDmc recs pts = .ub := by
  have hw := walk_all (P := P) recs hr [] (by simp) pts {}
  simp only [List.flatMap_nil, List.append_nil, List.nil_append] at hw
  unfold importDmc
  rw [hw]
  rfl

/-! A plane with a hole on the top layer, a plane on the bottom layer and a via between them -/

def exRec (via hole : Bool) (net layer s1 s2 : Int) (n : Nat) : Rec :=
  ⟨via, hole, net, layer, s1, s2, n, if net = 1 then "GND" else "VDD", if layer = 10 then "TOP" else "BOT"⟩

def exGs : List (Group Nat) :=
  [⟨exRec false false 1 10 1 1 3, [0, 1, 2], [(exRec false true 1 10 1 1 3, [3, 4, 5])]⟩, ⟨exRec false false 2 20 2 2 3, [6, 7, 8], []⟩,
   ⟨exRec true false 1 0 1 2 3, [9, 10, 11], []⟩]

example : (∀ g ∈ exGs, g.Fits) ∧ Agree exGs := by
  refine ⟨?_, ?_, ?_, ?_⟩
  · intro g hg
    simp only [exGs, List.mem_cons, List.not_mem_nil, or_false] at hg
    rcases hg with rfl | rfl | rfl <;> refine ⟨rfl, rfl, ?_⟩ <;> simp [exRec]
  · decide +kernel
  · decide +kernel
  · decide +kernel

example : ((importDmc (exGs.flatMap Group.recs) (exGs.flatMap Group.pts)).bind fun x => Res.ok (x.1.geoms, x.2)) =
    .ok ([⟨0, 0, ⟨[0, 1, 2], [[3, 4, 5]]⟩⟩, ⟨1, 1, ⟨[6, 7, 8], []⟩⟩], [⟨"via_1", 0, 0, 1, ⟨[9, 10, 11], []⟩⟩]) := by decide +kernel

end Ecad.Dmc
