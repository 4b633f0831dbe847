import Verif.Thermal.StackPrismModel
import Verif.Thermal.PrismNetProps
/-!
What the extraction of a stackup prism model gives: one instance for every triangle with material, layer by layer, connected to
the neighbours in the mesh of its layer, and with the instances it touches in the layers above and below.
-/
namespace Ecad.PrismT
open Ecad.Thermal Ecad.GridT

variable {K : Type} [Field K] [LinearOrder K]

/-! ### specification -/

/-- what is in layer `l` at triangle `t` of the mesh of that layer -/
def cellS (meshes : List Mesh) (info : Nat → Nat → Option (Cell K)) (l t : Nat) : Option (Cell K) :=
  match meshes[l]? with
  | some mesh => if t < mesh.length then info l t else none
  | none => none

/-- a neighbour in the mesh of a layer -/
def nbS (meshes : List Mesh) (l t : Nat) (n : Fin 3) : Option Nat := meshes[l]?.bind fun mesh => nbOf mesh t n

/-- the instances of a layer that instance `p` touches, with the parts of the area of `p` -/
def touching (g : Tris K) (ps : List (Prism K)) (p : Prism K) (l : Nat) : List (Nat × K) :=
  ps.zipIdx.filterMap fun q => if q.1.layer = l then contact g p (q.2, q.1) else none

/-- What a stackup model is: every instance is a triangle with material, every such triangle has one instance,
instances are in the order of the layers, and have as neighbours the instances of the neighbouring triangles of the
layer; contacts are the instances of the layers above and below that they touch. -/
structure Stacked (g : Tris K) (meshes : List Mesh) (info : Nat → Nat → Option (Cell K)) (ps : List (SPrism K)) : Prop where
  cell : ∀ (i : Nat) (p : SPrism K), ps[i]? = some p → cellS meshes info p.base.layer p.base.elem.tri = some p.base.elem.cell
  all : ∀ (l t : Nat) (c : Cell K), cellS meshes info l t = some c →
    ∃ (i : Nat) (p : SPrism K), ps[i]? = some p ∧ p.base.layer = l ∧ p.base.elem.tri = t
  order : ∀ (i j : Nat) (p q : SPrism K), ps[i]? = some p → ps[j]? = some q →
    (i < j ↔ p.base.layer < q.base.layer ∨ (p.base.layer = q.base.layer ∧ p.base.elem.tri < q.base.elem.tri))
  edge : ∀ (i j : Nat) (p : SPrism K) (n : Fin 3), ps[i]? = some p →
    (p.base.edge n = some j ↔ ∃ q : SPrism K, ps[j]? = some q ∧ q.base.layer = p.base.layer ∧
      nbS meshes p.base.layer p.base.elem.tri n = some q.base.elem.tri)
  top : ∀ (i : Nat) (p : SPrism K), ps[i]? = some p → p.base.top = if p.base.layer = 0 then none else some i
  bot : ∀ (i : Nat) (p : SPrism K), ps[i]? = some p → p.base.bot = if p.base.layer + 1 = meshes.length then none else some i
  up : ∀ (i : Nat) (p : SPrism K), ps[i]? = some p → p.up =
    if p.base.layer = 0 then [] else touching g (ps.map SPrism.base) p.base (p.base.layer - 1)
  down : ∀ (i : Nat) (p : SPrism K), ps[i]? = some p → p.down = touching g (ps.map SPrism.base) p.base (p.base.layer + 1)
  self : ∀ (i : Nat) (p : SPrism K), ps[i]? = some p → p.base.elem.top ≠ none ∧ p.base.elem.bot ≠ none

/-! ### extraction -/

omit [Field K] [LinearOrder K] in
theorem cellS_some {meshes : List Mesh} {info : Nat → Nat → Option (Cell K)} {l t : Nat} {c : Cell K} (h : cellS meshes info l t = some c) :
    ∃ mesh, meshes[l]? = some mesh ∧ t < mesh.length ∧ info l t = some c := by
  unfold cellS at h
  cases hm : meshes[l]? with
  | none => rw [hm] at h; cases h
  | some mesh =>
    rw [hm] at h
    simp only at h
    split_ifs at h with ht
    exact ⟨mesh, rfl, ht, h⟩

/-- more triangles than any mesh has -/
def bound (meshes : List Mesh) : Nat := (meshes.map List.length).sum

theorem le_bound {meshes : List Mesh} {l : Nat} {mesh : Mesh} (h : meshes[l]? = some mesh) : mesh.length ≤ bound meshes := by
  unfold bound
  exact List.single_le_sum (fun _ _ => Nat.zero_le _) _ (List.mem_map_of_mem (List.mem_of_getElem? h))

omit [Field K] [LinearOrder K] in
theorem cellAt_cellS (meshes : List Mesh) (info : Nat → Nat → Option (Cell K)) (l t : Nat) :
    cellAt (bound meshes) meshes.length (cellS meshes info) l t = cellS meshes info l t := by
  unfold cellAt
  split_ifs with h
  · rfl
  · cases hc : cellS meshes info l t with
    | none => rfl
    | some c =>
      obtain ⟨mesh, hm, ht, _⟩ := cellS_some hc
      have := le_bound hm
      have := (List.getElem?_eq_some_iff.1 hm).1
      omega

omit [Field K] [LinearOrder K] in
theorem layerOf_extend {n T : Nat} {info info' : Nat → Option (Cell K)} (e : Nat → Cell K → Elem K) (hn : n ≤ T)
    (h1 : ∀ t, t < n → info t = info' t) (h2 : ∀ t, n ≤ t → info' t = none) : layerOf n info e = layerOf T info' e := by
  have hT : layerOf T info' e = layerOf n info' e := by
    unfold layerOf
    have : T = n + (T - n) := by omega
    rw [this, List.range_eq_range', ← List.range'_append_1, List.filterMap_append, List.range_eq_range']
    have : (List.range' (0 + n) (T - n)).filterMap (fun t => (info' t).map (e t)) = [] := by
      rw [List.filterMap_eq_nil_iff]
      intro t ht
      rw [List.mem_range'_1] at ht
      rw [h2 t (by omega)]; rfl
    rw [this, List.append_nil]
  rw [hT]
  exact layerOf_congr h1 fun _ _ _ _ => rfl

/-- the element of a triangle -/
def elemS (meshes : List Mesh) (info : Nat → Nat → Option (Cell K)) (l t : Nat) (c : Cell K) : Elem K :=
  ⟨c, rank (cellS meshes info l) t, t, fun n => (nbS meshes l t n).bind (slot (bound meshes) meshes.length (cellS meshes info) l),
    some (rank (cellS meshes info l) t), some (rank (cellS meshes info l) t)⟩

omit [Field K] [LinearOrder K] in
theorem stackLayer_eq {meshes : List Mesh} {info : Nat → Nat → Option (Cell K)} {l : Nat} {mesh : Mesh} (h : meshes[l]? = some mesh) :
    stackLayer mesh (info l) = .ok (layerOf (bound meshes) (cellS meshes info l) (elemS meshes info l)) := by
  have hcell : ∀ t, t < mesh.length → info l t = cellS meshes info l t := by
    intro t ht
    unfold cellS
    rw [h]
    simp only
    rw [if_pos ht]
  have hout : ∀ t, mesh.length ≤ t → cellS meshes info l t = none := by
    intro t ht
    unfold cellS
    rw [h]
    simp only
    rw [if_neg (by omega)]
  have h1 : (buildLayer mesh.length (info l)).1 = withTop mesh.length (info l) fun _ => none := (buildLayer_eq (info l) mesh.length).1
  unfold stackLayer
  simp only
  rw [h1, edges_of_layer, Res.bind_ok]
  unfold finished
  rw [map_layerOf, ← layerOf_extend (elemS meshes info l) (le_bound h) hcell hout]
  congr 1
  apply layerOf_congr (fun _ _ => rfl)
  intro t c ht _
  unfold selfNb elemS
  have hr : rank (info l) t = rank (cellS meshes info l) t := rank_congr fun t' ht' => hcell t' (by omega)
  simp only [hr]
  congr 1
  funext n
  unfold nbS
  rw [h]
  simp only [Option.bind_some]
  congr 1
  funext t'
  unfold slot
  rw [cellAt_cellS]
  have e : cellAt (bound meshes) meshes.length (cellS meshes info) l = cellS meshes info l := by
    funext t; exact cellAt_cellS meshes info l t
  rw [e]
  by_cases ht' : t' < mesh.length
  · rw [if_pos ht', hcell t' ht']
    congr 1
    funext _
    exact rank_congr fun t'' h'' => hcell t'' (by omega)
  · rw [if_neg ht', hout t' (by omega)]; rfl

omit [Field K] [LinearOrder K] in
theorem stackLayers_eq (meshes : List Mesh) (info : Nat → Nat → Option (Cell K)) :
    stackLayers meshes info = .ok ((List.range meshes.length).map fun l =>
      layerOf (bound meshes) (cellS meshes info l) (elemS meshes info l)) := by
  unfold stackLayers
  rw [mapRes_ok _ _ fun m => layerOf (bound meshes) (cellS meshes info m.2) (elemS meshes info m.2)]
  · congr 1
    apply List.ext_getElem?
    intro l
    rw [List.getElem?_map, List.getElem?_map, List.getElem?_zipIdx]
    by_cases hl : l < meshes.length
    · rw [List.getElem?_eq_getElem hl, List.getElem?_range hl]; simp
    · rw [List.getElem?_eq_none (by omega), List.getElem?_eq_none (by simpa using hl)]; rfl
  · rintro ⟨mesh, l⟩ hm
    rw [List.mem_zipIdx_iff_getElem?] at hm
    exact stackLayer_eq hm

/-! ### instances -/

/-- number of the instance of a triangle -/
def gidS (meshes : List Mesh) (info : Nat → Nat → Option (Cell K)) (l t : Nat) : Nat :=
  gid (bound meshes) meshes.length (cellS meshes info) l t

/-- the instance of a triangle, without what is above and below -/
def sideAt (meshes : List Mesh) (info : Nat → Nat → Option (Cell K)) (l t : Nat) (c : Cell K) : Prism K :=
  ⟨l, elemS meshes info l t c, fun n => (nbS meshes l t n).bind (gslot (bound meshes) meshes.length (cellS meshes info) l), none, none⟩

/-- the sizes of the layers -/
def sizesS (meshes : List Mesh) (info : Nat → Nat → Option (Cell K)) : List Nat :=
  (List.range meshes.length).map fun l => rank (cellS meshes info l) (bound meshes)

omit [Field K] [LinearOrder K] in
theorem sizesS_eq (meshes : List Mesh) (info : Nat → Nat → Option (Cell K)) : sizesS meshes info =
    (List.range meshes.length).map fun l => rank (cellAt (bound meshes) meshes.length (cellS meshes info) l) (bound meshes) := by
  unfold sizesS
  apply List.map_congr_left
  intro l _
  congr 1
  funext t
  exact (cellAt_cellS meshes info l t).symm

omit [Field K] [LinearOrder K] in
/-- where a triangle is, and what is found there -/
theorem locate {meshes : List Mesh} {info : Nat → Nat → Option (Cell K)} {l t : Nat} {c : Cell K} (h : cellS meshes info l t = some c) :
    l < meshes.length ∧ localIndex (offsets 0 (sizesS meshes info)) (gidS meshes info l t) = .ok (l, rank (cellS meshes info l) t) ∧
    gidS meshes info l t < (sizesS meshes info).sum ∧
    ((sizesS meshes info).take l).sum ≤ gidS meshes info l t ∧ gidS meshes info l t < ((sizesS meshes info).take (l + 1)).sum := by
  have hc : cellAt (bound meshes) meshes.length (cellS meshes info) l t = some c := by rw [cellAt_cellS]; exact h
  have hlt := cellAt_lt hc
  have e : cellAt (bound meshes) meshes.length (cellS meshes info) l = cellS meshes info l := by
    funext t; exact cellAt_cellS meshes info l t
  have hget : (sizesS meshes info)[l]? = some (rank (cellS meshes info l) (bound meshes)) := by
    unfold sizesS
    rw [List.getElem?_map, List.getElem?_range hlt.1]; rfl
  have hr := rank_lt (cellS meshes info l) hlt.2 (by rw [h]; rfl)
  have h1 := (c34_prisms (sizesS meshes info)).1 l (rank (cellS meshes info l) t) _ hget hr
  have hb : ((sizesS meshes info).take l).sum = before (bound meshes) meshes.length (cellS meshes info) l := by
    rw [sizesS_eq]; exact before_take _ _ _ _ hlt.1.le
  have hg : gidS meshes info l t = ((sizesS meshes info).take l).sum + rank (cellS meshes info l) t := by
    unfold gidS gid; rw [hb, e]
  have hs : ((sizesS meshes info).take (l + 1)).sum = ((sizesS meshes info).take l).sum + rank (cellS meshes info l) (bound meshes) := by
    rw [List.take_add_one, hget, List.sum_append]; simp
  rw [hg]
  exact ⟨hlt.1, h1.2.2, h1.2.1, by omega, by omega⟩

omit [Field K] [LinearOrder K] in
theorem gidS_surj (meshes : List Mesh) (info : Nat → Nat → Option (Cell K)) (i : Nat) (h : i < (sizesS meshes info).sum) :
    ∃ l t c, cellS meshes info l t = some c ∧ gidS meshes info l t = i := by
  obtain ⟨l, t, c, hc, hg⟩ := (gid_bijective (bound meshes) meshes.length (cellS meshes info)).2 i (by rw [sizesS_eq] at h; exact h)
  rw [cellAt_cellS] at hc
  exact ⟨l, t, c, hc, hg⟩

omit [LinearOrder K] in
/-- the instances are numbered by layer, then by triangle -/
theorem gidS_lt {meshes : List Mesh} {info : Nat → Nat → Option (Cell K)} {l t l' t' : Nat} {c c' : Cell K}
    (h : cellS meshes info l t = some c) (h' : cellS meshes info l' t' = some c') :
    gidS meshes info l t < gidS meshes info l' t' ↔ l < l' ∨ (l = l' ∧ t < t') := by
  have hc : cellAt (bound meshes) meshes.length (cellS meshes info) l t = some c := by rw [cellAt_cellS]; exact h
  have hc' : cellAt (bound meshes) meshes.length (cellS meshes info) l' t' = some c' := by rw [cellAt_cellS]; exact h'
  have key : ∀ {l t l' t' : Nat} {c c' : Cell K}, cellAt (bound meshes) meshes.length (cellS meshes info) l t = some c →
      cellAt (bound meshes) meshes.length (cellS meshes info) l' t' = some c' → (l < l' ∨ (l = l' ∧ t < t')) →
      gidS meshes info l t < gidS meshes info l' t' := by
    rintro l t l' t' c c' h h' (hl | ⟨rfl, ht⟩)
    · exact before_lt _ _ _ hl h
    · unfold gidS gid
      have := rank_lt (cellAt (bound meshes) meshes.length (cellS meshes info) l) ht (by rw [h]; rfl)
      omega
  constructor
  · intro hlt
    by_contra hno
    rcases Nat.lt_trichotomy l l' with h1 | rfl | h1
    · exact hno (.inl h1)
    · rcases Nat.lt_trichotomy t t' with h2 | rfl | h2
      · exact hno (.inr ⟨rfl, h2⟩)
      · omega
      · have := key hc' hc (.inr ⟨rfl, h2⟩); omega
    · have := key hc' hc (.inl h1); omega
  · exact key hc hc'

omit [Field K] [LinearOrder K] in
theorem makeSide_eq {meshes : List Mesh} {info : Nat → Nat → Option (Cell K)} {l t : Nat} {c : Cell K} (h : cellS meshes info l t = some c) :
    makeSide (offsets 0 (sizesS meshes info)) ((List.range meshes.length).map fun l => layerOf (bound meshes) (cellS meshes info l) (elemS meshes info l))
      (gidS meshes info l t) = .ok (sideAt meshes info l t c) := by
  obtain ⟨hl, hloc, _, _, _⟩ := locate h
  have hc : cellAt (bound meshes) meshes.length (cellS meshes info) l t = some c := by rw [cellAt_cellS]; exact h
  have hslot : ∀ t, toGlobal (offsets 0 (sizesS meshes info)) l (slot (bound meshes) meshes.length (cellS meshes info) l t) =
      .ok (gslot (bound meshes) meshes.length (cellS meshes info) l t) := by
    intro t
    unfold slot gslot
    cases hc : cellAt (bound meshes) meshes.length (cellS meshes info) l t with
    | none => rfl
    | some c =>
      simp only [Option.map_some, toGlobal]
      unfold globalIndex Res.index
      rw [sizesS_eq, offsets_get 0 _ l (by simp; omega), before_take _ _ _ _ hl.le]
      simp [gid]
  have hbind : ∀ n, toGlobal (offsets 0 (sizesS meshes info)) l
      ((nbS meshes l t n).bind (slot (bound meshes) meshes.length (cellS meshes info) l)) =
        .ok ((nbS meshes l t n).bind (gslot (bound meshes) meshes.length (cellS meshes info) l)) := by
    intro n
    cases nbS meshes l t n with
    | none => rfl
    | some t' => exact hslot t'
  have h2 : Res.index ((List.range meshes.length).map fun l => layerOf (bound meshes) (cellS meshes info l) (elemS meshes info l)) l =
      .ok (layerOf (bound meshes) (cellS meshes info l) (elemS meshes info l)) := by
    unfold Res.index
    rw [List.getElem?_map, List.getElem?_range hl]; rfl
  have h3 : Res.at_ (layerOf (bound meshes) (cellS meshes info l) (elemS meshes info l)) (rank (cellS meshes info l) t) =
      .ok (elemS meshes info l t c) := by
    unfold Res.at_
    rw [layerOf_get (cellAt_lt hc).2 h]
  unfold makeSide
  rw [hloc, Res.bind_ok]
  simp only
  rw [h2, Res.bind_ok, h3, Res.bind_ok]
  unfold elemS
  simp only
  rw [hbind, Res.bind_ok, hbind, Res.bind_ok, hbind, Res.bind_ok]
  rw [three_eq fun n => (nbS meshes l t n).bind (gslot (bound meshes) meshes.length (cellS meshes info) l)]
  rfl

omit [Field K] [LinearOrder K] in
/-- the first loop -/
theorem sides_eq (meshes : List Mesh) (info : Nat → Nat → Option (Cell K)) :
    ∃ ps, mapRes (makeSide (offsets 0 (sizesS meshes info)) ((List.range meshes.length).map fun l =>
        layerOf (bound meshes) (cellS meshes info l) (elemS meshes info l))) (List.range (sizesS meshes info).sum) = .ok ps ∧
      ps.length = (sizesS meshes info).sum ∧
      (∀ l t c, cellS meshes info l t = some c → ps[gidS meshes info l t]? = some (sideAt meshes info l t c)) := by
  have hex : ∀ g, ∃ p, g < (sizesS meshes info).sum → ∃ l t c, cellS meshes info l t = some c ∧
      gidS meshes info l t = g ∧ p = sideAt meshes info l t c := by
    intro g
    by_cases hg : g < (sizesS meshes info).sum
    · obtain ⟨l, t, c, hc, hgid⟩ := gidS_surj meshes info g hg
      exact ⟨_, fun _ => ⟨l, t, c, hc, hgid, rfl⟩⟩
    · exact ⟨⟨0, ⟨⟨0, none⟩, 0, 0, fun _ => none, none, none⟩, fun _ => none, none, none⟩, fun h => absurd h hg⟩
  choose P hP using hex
  refine ⟨(List.range (sizesS meshes info).sum).map P, ?_, by simp, ?_⟩
  · rw [mapRes_ok _ _ P]
    intro g hg
    rw [List.mem_range] at hg
    obtain ⟨l, t, c, hc, rfl, hp⟩ := hP g hg
    rw [hp]
    exact makeSide_eq hc
  · intro l t c hc
    have hlt := (locate hc).2.2.1
    rw [List.getElem?_map, List.getElem?_range hlt]
    obtain ⟨l', t', c', hc', he, hp⟩ := hP _ hlt
    obtain ⟨rfl, rfl⟩ := (gid_bijective (bound meshes) meshes.length (cellS meshes info)).1 l' t' c' l t c
      (by rw [cellAt_cellS]; exact hc') (by rw [cellAt_cellS]; exact hc) he
    rw [hc] at hc'
    simp only [Option.some.injEq] at hc'
    subst hc'
    simp [hp]

/-! ### contacts -/

theorem pairs_cons (a b : Nat) (l : List Nat) : pairs (a :: b :: l) = (a, b) :: pairs (b :: l) := by rw [pairs]

/-- the ranges of the layers make up all elements -/
theorem pairs_offsets (sizes : List Nat) : ∀ s, ((pairs (offsets s sizes)).flatMap fun b => List.range' b.1 (b.2 - b.1)) =
    List.range' s sizes.sum := by
  induction sizes with
  | nil => intro s; rfl
  | cons n sizes ih =>
    intro s
    obtain ⟨t, ht⟩ := offsets_head (s + n) sizes
    have h : pairs (offsets s (n :: sizes)) = (s, s + n) :: pairs (offsets (s + n) sizes) := by
      rw [offsets, ht, pairs_cons]
    rw [h, List.flatMap_cons, ih, List.sum_cons, ← List.range'_append_1]
    congr 2
    simp

theorem stackBlocks_all (sizes : List Nat) (threads : Nat) :
    ((stackBlocks (offsets 0 sizes) threads).flatMap fun b => List.range' b.1 (b.2 - b.1)) = List.range sizes.sum := by
  unfold stackBlocks
  split_ifs
  · rw [pairs_offsets, List.range_eq_range']
  · rw [offsets_total, List.range_eq_range']; simp

theorem zipIdx_range {α β : Type _} (l : List α) (f : α × Nat → Option β) :
    l.zipIdx.filterMap f = (List.range l.length).filterMap fun j => l[j]?.bind fun a => f (a, j) := by
  suffices H : ∀ (l : List α) (k : Nat), (l.zipIdx k).filterMap f = (List.range' k l.length).filterMap fun j => l[j - k]?.bind fun a => f (a, j) by
    rw [H l 0, List.range_eq_range']; rfl
  clear l
  intro l
  induction l with
  | nil => intro k; rfl
  | cons a l ih =>
    intro k
    rw [List.zipIdx_cons, List.filterMap_cons, ih, List.length_cons, List.range'_succ, List.filterMap_cons]
    have hrest : (List.range' (k + 1) l.length).filterMap (fun j => l[j - (k + 1)]?.bind fun a => f (a, j)) =
        (List.range' (k + 1) l.length).filterMap fun j => (a :: l)[j - k]?.bind fun a => f (a, j) := by
      apply List.filterMap_congr
      intro j hj
      rw [List.mem_range'_1] at hj
      have : j - k = (j - (k + 1)) + 1 := by omega
      rw [this, List.getElem?_cons_succ]
    rw [hrest]
    simp

/-- the contacts are the instances of the layer that touch -/
theorem contacts_eq (g : Tris K) {meshes : List Mesh} {info : Nat → Nat → Option (Cell K)} {ps : List (Prism K)}
    (hlen : ps.length = (sizesS meshes info).sum)
    (hps : ∀ l t c, cellS meshes info l t = some c → ps[gidS meshes info l t]? = some (sideAt meshes info l t c)) (p : Prism K) {l : Nat}
    (hl : l < meshes.length) : contacts g (offsets 0 (sizesS meshes info)) ps p l = .ok (touching g ps p l) := by
  have hsl : (sizesS meshes info).length = meshes.length := by simp [sizesS]
  have hlo := offsets_get 0 (sizesS meshes info) l (by omega)
  have hhi := offsets_get 0 (sizesS meshes info) (l + 1) (by omega)
  rw [Nat.zero_add] at hlo hhi
  have hle : ((sizesS meshes info).take l).sum ≤ ((sizesS meshes info).take (l + 1)).sum := by
    rw [List.take_add_one, List.sum_append]; omega
  have hle2 : ((sizesS meshes info).take (l + 1)).sum ≤ (sizesS meshes info).sum := by
    conv_rhs => rw [← List.take_append_drop (l + 1) (sizesS meshes info), List.sum_append]
    omega
  have hlayer : ∀ (j : Nat) (q : Prism K), ps[j]? = some q → (q.layer = l ↔ ((sizesS meshes info).take l).sum ≤ j ∧ j < ((sizesS meshes info).take (l + 1)).sum) := by
    intro j q hq
    have hj := (List.getElem?_eq_some_iff.1 hq).1
    obtain ⟨l', t, c, hc, rfl⟩ := gidS_surj meshes info j (by omega)
    rw [hps l' t c hc] at hq
    simp only [Option.some.injEq] at hq
    subst hq
    obtain ⟨_, _, _, h1, h2⟩ := locate hc
    have mono : ∀ a b, a ≤ b → ((sizesS meshes info).take a).sum ≤ ((sizesS meshes info).take b).sum := by
      intro a b hab
      induction hab with
      | refl => exact le_refl _
      | step _ ih => rw [Nat.succ_eq_add_one, List.take_add_one, List.sum_append]; omega
    show l' = l ↔ _
    constructor
    · rintro rfl; exact ⟨h1, h2⟩
    · rintro ⟨h3, h4⟩
      rcases Nat.lt_trichotomy l' l with h | h | h
      · have := mono (l' + 1) l h; omega
      · exact h
      · have := mono (l + 1) l' h; omega
  unfold contacts layerPrisms
  have a1 : Res.at_ (offsets 0 (sizesS meshes info)) l = .ok ((sizesS meshes info).take l).sum := by
    unfold Res.at_; rw [hlo]
  have a2 : Res.at_ (offsets 0 (sizesS meshes info)) (l + 1) = .ok ((sizesS meshes info).take (l + 1)).sum := by
    unfold Res.at_; rw [hhi]
  rw [a1, Res.bind_ok, a2, Res.bind_ok]
  generalize ((sizesS meshes info).take l).sum = lo at *
  generalize ((sizesS meshes info).take (l + 1)).sum = hi at *
  have hpos : ∀ j, j < ps.length → ∃ q, ps[j]? = some q := fun j hj => ⟨_, List.getElem?_eq_getElem hj⟩
  have hd : ∀ j ∈ List.range' lo (hi - lo), ∃ q, ps[j]? = some q := by
    intro j hj
    rw [List.mem_range'_1] at hj
    exact hpos j (by omega)
  have hm : ∀ js : List Nat, (∀ j ∈ js, ∃ q, ps[j]? = some q) →
      (mapRes (fun j => (Res.at_ ps j).bind fun q => .ok (j, q)) js).bind (fun qs => .ok (qs.filterMap (contact g p))) =
        .ok (js.filterMap fun j => ps[j]?.bind fun q => contact g p (j, q)) := by
    intro js
    induction js with
    | nil => intro _; rfl
    | cons j js ih =>
      intro h
      obtain ⟨q, hq⟩ := h j (by simp)
      have ih := ih fun j' hj' => h j' (by simp [hj'])
      have e : Res.at_ ps j = .ok q := by unfold Res.at_; rw [hq]
      rw [mapRes, e, Res.bind_ok, Res.bind_ok]
      cases hr : mapRes (fun j => (Res.at_ ps j).bind fun q => Res.ok (j, q)) js with
      | ok qs =>
        rw [hr] at ih
        simp only [Res.bind_ok, Res.ok.injEq] at ih ⊢
        rw [List.filterMap_cons, List.filterMap_cons, hq, ih]
        rfl
      | ub => rw [hr] at ih; simp at ih
      | exn => rw [hr] at ih; simp at ih
  rw [hm _ hd]
  unfold touching
  rw [zipIdx_range]
  have hsplit : List.range ps.length = List.range' 0 lo ++ (List.range' lo (hi - lo) ++ List.range' hi (ps.length - hi)) := by
    have : ps.length = lo + ((hi - lo) + (ps.length - hi)) := by omega
    rw [List.range_eq_range', this, ← List.range'_append_1, ← List.range'_append_1]
    have e1 : 0 + lo = lo := by omega
    have e2 : lo + (hi - lo) = hi := by omega
    have e3 : hi - lo + (ps.length - hi) = ps.length - lo := by omega
    rw [e1, e2]
    congr 3
    omega
  have hz : ∀ js : List Nat, (∀ j ∈ js, ¬ (lo ≤ j ∧ j < hi)) →
      (js.filterMap fun j => ps[j]?.bind fun q => if q.layer = l then contact g p (j, q) else none) = [] := by
    intro js hjs
    rw [List.filterMap_eq_nil_iff]
    intro j hj
    cases hq : ps[j]? with
    | none => rfl
    | some q =>
      rw [Option.bind_some, if_neg]
      intro hql
      exact hjs j hj ((hlayer j q hq).1 hql)
  rw [hsplit, List.filterMap_append, List.filterMap_append, hz (List.range' 0 lo), hz (List.range' hi _), List.nil_append, List.append_nil]
  · congr 1
    apply List.filterMap_congr
    intro j hj
    obtain ⟨q, hq⟩ := hd j hj
    rw [List.mem_range'_1] at hj
    rw [hq, Option.bind_some, Option.bind_some, if_pos ((hlayer j q hq).2 (by omega))]
  · intro j hj; rw [List.mem_range'_1] at hj; omega
  · intro j hj; rw [List.mem_range'_1] at hj; omega

theorem touching_congr (g : Tris K) {ps ps' : List (Prism K)} (h : ps.map (fun p => (p.layer, p.elem.tri)) = ps'.map fun p => (p.layer, p.elem.tri))
    {p p' : Prism K} (hp : p.layer = p'.layer) (hp' : p.elem.tri = p'.elem.tri) (l : Nat) : touching g ps p l = touching g ps' p' l := by
  unfold touching
  rw [zipIdx_range, zipIdx_range]
  have hlen : ps.length = ps'.length := by simpa using congrArg List.length h
  rw [hlen]
  apply List.filterMap_congr
  intro j _
  have hj := congrArg (fun l => l[j]?) h
  simp only [List.getElem?_map] at hj
  cases hq : ps[j]? with
  | none =>
    cases hq' : ps'[j]? with
    | none => rfl
    | some q' => rw [hq, hq'] at hj; simp at hj
  | some q =>
    cases hq' : ps'[j]? with
    | none => rw [hq, hq'] at hj; simp at hj
    | some q' =>
      rw [hq, hq'] at hj
      simp only [Option.map_some, Option.some.injEq, Prod.mk.injEq] at hj
      simp only [Option.bind_some, contact, hj.1, hj.2, hp, hp']

/-- **Stackup models.** For every list of meshes, whatever is found for the triangles, and for every number of threads, extraction
and construction succeed and give a stackup model. -/
theorem stack_built (g : Tris K) (meshes : List Mesh) (info : Nat → Nat → Option (Cell K)) (threads : Nat) :
    ∃ off ps, (stackLayers meshes info).bind (fun ls => buildStack g ls threads) = .ok (off, ps) ∧
      ps.length = totalPrisms off ∧ Stacked g meshes info ps := by
  obtain ⟨sides, hsides, hlen, hps⟩ := sides_eq meshes info
  have hsz : ((List.range meshes.length).map fun l => layerOf (bound meshes) (cellS meshes info l) (elemS meshes info l)).map List.length =
      sizesS meshes info := by
    rw [List.map_map]
    apply List.map_congr_left
    intro l _
    exact filterMap_rank_length _ _ _
  let mk : Nat → Prism K → SPrism K := fun i p =>
    ⟨{ p with top := if p.layer = 0 then none else some i, bot := if p.layer + 1 = meshes.length then none else some i },
      if p.layer = 0 then [] else touching g sides p (p.layer - 1), if p.layer + 1 = meshes.length then [] else touching g sides p (p.layer + 1)⟩
  have hget : ∀ i : Nat, i < (sizesS meshes info).sum → ∃ l t c, cellS meshes info l t = some c ∧ gidS meshes info l t = i ∧
      sides[i]? = some (sideAt meshes info l t c) := by
    intro i hi
    obtain ⟨l, t, c, hc, rfl⟩ := gidS_surj meshes info i hi
    exact ⟨l, t, c, hc, rfl, hps l t c hc⟩
  have htb : ∀ i ∈ List.range (sizesS meshes info).sum,
      topBot g meshes.length (offsets 0 (sizesS meshes info)) sides i = .ok (mk i ((sides[i]?).getD (sideAt meshes info 0 0 ⟨0, none⟩))) := by
    intro i hi
    rw [List.mem_range] at hi
    obtain ⟨l, t, c, hc, rfl, hq⟩ := hget i hi
    obtain ⟨hl, hloc, _⟩ := locate hc
    unfold topBot Res.index
    rw [hq, Option.getD_some]
    simp only
    rw [Res.bind_ok, hloc, Res.bind_ok]
    simp only
    have h1 : (if l = 0 then Res.ok [] else contacts g (offsets 0 (sizesS meshes info)) sides (sideAt meshes info l t c) (l - 1)) =
        .ok (if l = 0 then [] else touching g sides (sideAt meshes info l t c) (l - 1)) := by
      split_ifs
      · rfl
      · exact contacts_eq g hlen hps _ (by omega)
    have h2 : (if l + 1 = meshes.length then Res.ok [] else contacts g (offsets 0 (sizesS meshes info)) sides (sideAt meshes info l t c) (l + 1)) =
        .ok (if l + 1 = meshes.length then [] else touching g sides (sideAt meshes info l t c) (l + 1)) := by
      split_ifs
      · rfl
      · exact contacts_eq g hlen hps _ (by omega)
    rw [h1, Res.bind_ok, h2, Res.bind_ok]
    rfl
  have hbuilt : (stackLayers meshes info).bind (fun ls => buildStack g ls threads) = .ok (offsets 0 (sizesS meshes info),
      (List.range (sizesS meshes info).sum).map fun i => mk i ((sides[i]?).getD (sideAt meshes info 0 0 ⟨0, none⟩))) := by
    rw [stackLayers_eq, Res.bind_ok]
    unfold buildStack
    simp only
    rw [hsz, offsets_total, Nat.zero_add, hsides, Res.bind_ok, stackBlocks_all, List.length_map, List.length_range, mapRes_ok _ _ _ htb]
    rfl
  have hP : ∀ (i : Nat) (p : SPrism K), ((List.range (sizesS meshes info).sum).map fun i => mk i ((sides[i]?).getD (sideAt meshes info 0 0 ⟨0, none⟩)))[i]? = some p →
      ∃ l t c, cellS meshes info l t = some c ∧ gidS meshes info l t = i ∧ p = mk i (sideAt meshes info l t c) := by
    intro i p hp
    rw [List.getElem?_map] at hp
    by_cases hi : i < (sizesS meshes info).sum
    · rw [List.getElem?_range hi] at hp
      obtain ⟨l, t, c, hc, hg, hq⟩ := hget i hi
      simp only [Option.map_some, Option.some.injEq] at hp
      rw [hq, Option.getD_some] at hp
      exact ⟨l, t, c, hc, hg, hp.symm⟩
    · rw [List.getElem?_eq_none (by simpa using hi)] at hp; simp at hp
  have hQ : ∀ l t c, cellS meshes info l t = some c →
      ((List.range (sizesS meshes info).sum).map fun i => mk i ((sides[i]?).getD (sideAt meshes info 0 0 ⟨0, none⟩)))[gidS meshes info l t]? =
        some (mk (gidS meshes info l t) (sideAt meshes info l t c)) := by
    intro l t c hc
    rw [List.getElem?_map, List.getElem?_range (locate hc).2.2.1, Option.map_some, hps l t c hc]
    rfl
  have hT : ∀ (p p' : Prism K), p.layer = p'.layer → p.elem.tri = p'.elem.tri → ∀ l, touching g sides p l = touching g
      (((List.range (sizesS meshes info).sum).map fun i => mk i ((sides[i]?).getD (sideAt meshes info 0 0 ⟨0, none⟩))).map SPrism.base) p' l := by
    intro p p' h1 h2 l
    refine touching_congr g ?_ h1 h2 l
    apply List.ext_getElem?
    intro j
    simp only [List.getElem?_map]
    by_cases hj : j < (sizesS meshes info).sum
    · rw [List.getElem?_range hj]
      obtain ⟨l', t, c, hc, rfl, hq⟩ := hget j hj
      simp only [hq, Option.map_some, Option.getD_some]
      rfl
    · rw [List.getElem?_eq_none (by omega), List.getElem?_eq_none (by simpa using hj)]; rfl
  refine ⟨_, _, hbuilt, by simp [offsets_total], ?_⟩
  generalize hres : ((List.range (sizesS meshes info).sum).map fun i => mk i ((sides[i]?).getD (sideAt meshes info 0 0 ⟨0, none⟩))) = res at *
  refine ⟨?_, ?_, ?_, ?_, ?_, ?_, ?_, ?_, ?_⟩
  · intro i p hp
    obtain ⟨l, t, c, hc, _, rfl⟩ := hP i p hp
    exact hc
  · intro l t c hc
    exact ⟨_, _, hQ l t c hc, rfl, rfl⟩
  · intro i j p q hp hq
    obtain ⟨l, t, c, hc, rfl, rfl⟩ := hP i p hp
    obtain ⟨l', t', c', hc', rfl, rfl⟩ := hP j q hq
    exact gidS_lt hc hc'
  · intro i j p n hp
    obtain ⟨l, t, c, hc, rfl, rfl⟩ := hP i p hp
    show (nbS meshes l t n).bind (gslot (bound meshes) meshes.length (cellS meshes info) l) = some j ↔ ∃ q : SPrism K, res[j]? = some q ∧ q.base.layer = l ∧
      nbS meshes l t n = some q.base.elem.tri
    constructor
    · intro h
      rw [Option.bind_eq_some_iff] at h
      obtain ⟨t', ht', h⟩ := h
      unfold gslot at h
      rw [cellAt_cellS, Option.map_eq_some_iff] at h
      obtain ⟨c', hc', rfl⟩ := h
      exact ⟨_, hQ l t' c' hc', rfl, ht'⟩
    · rintro ⟨q, hq, hl, ht⟩
      obtain ⟨l', t', c', hc', rfl, rfl⟩ := hP j q hq
      obtain rfl : l' = l := hl
      have ht : nbS meshes l' t n = some t' := ht
      rw [ht, Option.bind_some]
      unfold gslot
      rw [cellAt_cellS, hc']
      rfl
  · intro i p hp
    obtain ⟨l, t, c, hc, _, rfl⟩ := hP i p hp
    rfl
  · intro i p hp
    obtain ⟨l, t, c, hc, _, rfl⟩ := hP i p hp
    rfl
  · intro i p hp
    obtain ⟨l, t, c, hc, _, rfl⟩ := hP i p hp
    show (if l = 0 then [] else touching g sides (sideAt meshes info l t c) (l - 1)) = _
    rw [hT (sideAt meshes info l t c) (mk i (sideAt meshes info l t c)).base rfl rfl]
    rfl
  · intro i p hp
    obtain ⟨l, t, c, hc, _, rfl⟩ := hP i p hp
    show (if l + 1 = meshes.length then [] else touching g sides (sideAt meshes info l t c) (l + 1)) = _
    rw [hT (sideAt meshes info l t c) (mk i (sideAt meshes info l t c)).base rfl rfl]
    split_ifs with hlast
    · symm
      show touching g (res.map SPrism.base) _ (l + 1) = []
      unfold touching
      rw [List.filterMap_eq_nil_iff]
      rintro ⟨q, j⟩ hq
      rw [List.mem_zipIdx_iff_getElem?, List.getElem?_map, Option.map_eq_some_iff] at hq
      obtain ⟨sq, hsq, rfl⟩ := hq
      obtain ⟨l', t', c', hc', _, rfl⟩ := hP j sq hsq
      rw [if_neg]
      intro hll
      have hll : l' = l + 1 := hll
      have := (locate hc').1
      omega
    · rfl
  · intro i p hp
    obtain ⟨l, t, c, hc, _, rfl⟩ := hP i p hp
    exact ⟨by simp [mk, sideAt, elemS], by simp [mk, sideAt, elemS]⟩

/-- two layers of two triangles each; the second triangle of the upper layer lies over both triangles of the lower -/
def twoByTwo : Res (List Nat × List (SPrism ℚ)) :=
  (stackLayers (K := ℚ) [[fun n => if n = 0 then some 1 else none, fun n => if n = 0 then some 0 else none],
      [fun n => if n = 1 then some 1 else none, fun n => if n = 1 then some 0 else none]] (fun _ _ => some ⟨0, none⟩)).bind fun ls =>
    buildStack ⟨fun _ _ => 2, fun _ _ _ _ => true, fun _ t _ t' => if t = 1 then 1 else if t' = 0 then 1 / 2 else 0⟩ ls 1

example : twoByTwo.bind (fun r => .ok (r.2.map fun p => (p.base.edge 0, p.base.edge 1))) =
    .ok [(some 1, none), (some 0, none), (none, some 3), (none, some 2)] := by decide +kernel

example : twoByTwo.bind (fun r => .ok (r.2.map fun p => (p.base.top, p.base.bot))) =
    .ok [(none, some 0), (none, some 1), (some 2, none), (some 3, none)] := by decide +kernel

example : twoByTwo.bind (fun r => .ok (r.2.map SPrism.down)) = .ok [[(2, 1 / 4)], [(2, 1 / 2), (3, 1 / 2)], [], []] := by decide +kernel

end Ecad.PrismT
