import Verif.Thermal.PrismResponseProps
import Verif.Thermal.StackBalanceProps
import Mathlib.Data.List.Sort
/-!
C139: How the steady temperatures of a stackup prism model respond to the powers of its blocks, the currents of its bond wires, its cooling and its
materials: from the layer cut model over the meshes of the layers with their contacts and the network to the temperatures.
-/
namespace Ecad.StackResp
open Ecad.Thermal Ecad.Response Ecad.GridT Ecad.PrismT Ecad.StackBal Ecad.Lower Finset
open Ecad.PrismResp (tabled driven segments part SameInfo tabled_info still rest wires_still driven_rest More more_refl mem_tabled sum_zipIdx div_le solves_on
  flat_le beyond)
open Ecad.PrismBal (Line.data data_wires segHeat whole_area)

/-! ## specification -/

/-- prisms of the same form -/
structure Shape (m m' : SModel ℚ) : Prop where
  area : m.area = m'.area
  edgeLen : m.edgeLen = m'.edgeLen
  toSide : m.toSide = m'.toSide
  dist : m.dist = m'.dist
  height : m.height = m'.height

/-- the same uniform boundary conditions -/
structure SameBC (m m' : SModel ℚ) : Prop where
  top : m.topBC = m'.topBC
  bot : m.botBC = m'.botBC

/-- uniform boundary conditions with values that are not smaller -/
structure MoreBC (m m' : SModel ℚ) : Prop where
  top : Option.Rel More m.topBC m'.topBC
  bot : Option.Rel More m.botBC m'.botBC

/-- conductivities that agree and do not depend on temperature -/
def SameK (m m' : SModel ℚ) : Prop := ∀ mat t t', m.k mat t = m'.k mat t'

/-- conductivities that are positive, and not smaller in the second model, at all temperatures -/
def MoreK (m m' : SModel ℚ) : Prop := ∀ mat t t' j, 0 < m.k mat t j ∧ m.k mat t j ≤ m'.k mat t' j

/-- lengths of the meshes: none is negative, and the centre of a neighbour is not nearer than the common side -/
structure Sized (m : SModel ℚ) (meshes : List Mesh) : Prop where
  height : ∀ l, 0 ≤ m.height l
  edgeLen : ∀ l t e, 0 ≤ m.edgeLen l t e
  toSide : ∀ l t e, 0 ≤ m.toSide l t e
  dist : ∀ l t e t', nbS meshes l t e = some t' → m.toSide l t e ≤ m.dist l t t'

/-- `x` are steady temperatures of a model: they solve the network built of it for some temperatures before -/
def Steady (minR refT : ℚ) (m : SModel ℚ) (x : Nat → ℚ) : Prop := ∃ T net, m.build minR T = .ok (some net) ∧ Solves net refT x

/-- the mean of `z` over the prisms of a block -/
def mean (c : CutM) (v : View) (meshes : List Mesh) (ps : List (SPrism ℚ)) (e : Nat × Block) (z : Nat → ℚ) : ℚ :=
  ∑ l ∈ range meshes.length, ∑ t ∈ range (meshes.getD l []).length, part c v l t e * z (num ps l t)

/-- powers of blocks and wires times `z` there: `P` of each block times the mean of `z` over it, and the square of the current times resistance
of each segment of a wire times `z` there -/
def weighted (c : CutM) (v : View) (meshes : List Mesh) (ps : List (SPrism ℚ)) (ws : List (Wire ℚ)) (r : Nat → ℚ) (P I : Nat → ℚ) (z : Nat → ℚ) : ℚ :=
  (c.blocks.map fun e => P e.1 * mean c v meshes ps e z).sum +
    ((segments ws).zipIdx.map fun g => I g.1.1 ^ 2 * (r g.1.2.1 * g.1.2.2.1 / g.1.2.2.2) * z (ps.length + g.2)).sum

/-! ## prisms of models that differ in powers -/

/-- prisms that differ in power only -/
structure Alike (p p' : SPrism ℚ) : Prop where
  layer : p.base.layer = p'.base.layer
  tri : p.base.elem.tri = p'.base.elem.tri
  mat : p.base.elem.cell.mat = p'.base.elem.cell.mat
  edge : p.base.edge = p'.base.edge
  top : p.base.top = p'.base.top
  bot : p.base.bot = p'.base.bot
  up : p.up = p'.up
  down : p.down = p'.down

section
variable {meshes : List Mesh} {info info' : Nat → Nat → Option (Cell ℚ)} {g : Tris ℚ} {ps ps' : List (SPrism ℚ)}

theorem cellS_same (h : SameInfo info info') (l t : Nat) : (cellS meshes info l t).map Cell.mat = (cellS meshes info' l t).map Cell.mat := by
  unfold cellS
  cases meshes[l]? with
  | none => rfl
  | some mesh =>
    dsimp only
    split_ifs
    · exact h l t
    · rfl

theorem someS_same (h : SameInfo info info') (l t : Nat) : (cellS meshes info l t).isSome = (cellS meshes info' l t).isSome := by
  have := congrArg Option.isSome (cellS_same (meshes := meshes) h l t)
  simpa using this

/-- layer and triangle of a prism -/
def key (p : SPrism ℚ) : Nat × Nat := (p.base.layer, p.base.elem.tri)

theorem mem_keys (h : Stacked g meshes info ps) (x : Nat × Nat) : x ∈ ps.map key ↔ (cellS meshes info x.1 x.2).isSome = true := by
  rw [List.mem_map]
  constructor
  · rintro ⟨p, hp, rfl⟩
    obtain ⟨i, hi⟩ := List.mem_iff_getElem?.1 hp
    show (cellS meshes info p.base.layer p.base.elem.tri).isSome = true
    rw [h.cell i p hi]
    rfl
  · intro hx
    obtain ⟨y, hy⟩ := Option.isSome_iff_exists.1 hx
    obtain ⟨i, p, hp, h1, h2⟩ := h.all _ _ _ hy
    exact ⟨p, List.mem_of_getElem? hp, Prod.ext h1 h2⟩

/-- the order of layers and triangles -/
def lower (x y : Nat × Nat) : Prop := x.1 < y.1 ∨ (x.1 = y.1 ∧ x.2 < y.2)

theorem keys_sorted (h : Stacked g meshes info ps) : (ps.map key).Pairwise lower := by
  rw [List.pairwise_map, List.pairwise_iff_getElem]
  intro i j hi hj hij
  exact (h.order i j _ _ (List.getElem?_eq_getElem hi) (List.getElem?_eq_getElem hj)).1 hij

theorem keys_nodup (h : Stacked g meshes info ps) : (ps.map key).Nodup := by
  refine (keys_sorted h).imp ?_
  intro x y hxy he
  unfold lower at hxy
  rw [he] at hxy
  omega

theorem keys_same (hi : SameInfo info info') (h : Stacked g meshes info ps) (h' : Stacked g meshes info' ps') : ps.map key = ps'.map key := by
  have hperm : (ps.map key).Perm (ps'.map key) := by
    rw [List.perm_ext_iff_of_nodup (keys_nodup h) (keys_nodup h')]
    intro x
    rw [mem_keys h, mem_keys h', someS_same hi]
  refine hperm.eq_of_pairwise ?_ (keys_sorted h) (keys_sorted h')
  intro a b _ _ hab hba
  unfold lower at hab hba
  omega

theorem key_at (hk : ps.map key = ps'.map key) (i : Nat) : (ps[i]? = none ∧ ps'[i]? = none) ∨
    ∃ p p', ps[i]? = some p ∧ ps'[i]? = some p' ∧ p.base.layer = p'.base.layer ∧ p.base.elem.tri = p'.base.elem.tri := by
  have := congrArg (fun l => l[i]?) hk
  simp only [List.getElem?_map] at this
  cases h1 : ps[i]? with
  | none =>
    rw [h1] at this
    cases h2 : ps'[i]? with
    | none => exact .inl ⟨rfl, rfl⟩
    | some p' => rw [h2] at this; simp at this
  | some p =>
    rw [h1] at this
    cases h2 : ps'[i]? with
    | none => rw [h2] at this; simp at this
    | some p' =>
      rw [h2] at this
      simp only [Option.map_some, Option.some.injEq, key, Prod.mk.injEq] at this
      exact .inr ⟨p, p', rfl, rfl, this.1, this.2⟩

theorem num_same (hk : ps.map key = ps'.map key) (l t : Nat) : num ps l t = num ps' l t := by
  have e : ∀ qs : List (SPrism ℚ), num qs l t = (qs.map key).findIdx fun x => x.1 == l && x.2 == t := by
    intro qs
    rw [List.findIdx_map]
    rfl
  rw [e, e, hk]

theorem edge_same (hk : ps.map key = ps'.map key) (h : Stacked g meshes info ps) (h' : Stacked g meshes info' ps') {i : Nat} {p p' : SPrism ℚ}
    (hp : ps[i]? = some p) (hp' : ps'[i]? = some p') (n : Fin 3) (j : Nat) : p.base.edge n = some j → p'.base.edge n = some j := by
  intro he
  obtain ⟨q, hq, q1, q2⟩ := (h.edge i j p n hp).1 he
  rcases key_at hk i with ⟨n1, -⟩ | ⟨r, r', r1, r2, r3, r4⟩
  · rw [hp] at n1; cases n1
  rw [hp, Option.some.injEq] at r1
  rw [hp', Option.some.injEq] at r2
  subst r1 r2
  rcases key_at hk j with ⟨n1, -⟩ | ⟨s, s', s1, s2, s3, s4⟩
  · rw [hq] at n1; cases n1
  rw [hq, Option.some.injEq] at s1
  subst s1
  exact (h'.edge i j p' n hp').2 ⟨s', s2, by rw [← s3, q1, r3], by rw [← r3, ← r4, q2, s4]⟩

theorem stacked_alike (hi : SameInfo info info') (h : Stacked g meshes info ps) (h' : Stacked g meshes info' ps') : List.Forall₂ Alike ps ps' := by
  have hk := keys_same hi h h'
  have hlen : ps.length = ps'.length := by simpa using congrArg List.length hk
  have hkb : (ps.map SPrism.base).map (fun p => (p.layer, p.elem.tri)) = (ps'.map SPrism.base).map fun p => (p.layer, p.elem.tri) := by
    rw [List.map_map, List.map_map]
    exact hk
  rw [List.forall₂_iff_get]
  refine ⟨hlen, fun i h1 h2 => ?_⟩
  rw [List.get_eq_getElem, List.get_eq_getElem]
  rcases key_at hk i with ⟨n1, -⟩ | ⟨p, p', r1, r2, r3, r4⟩
  · rw [List.getElem?_eq_getElem h1] at n1; cases n1
  rw [show ps[i] = p by rw [List.getElem?_eq_getElem h1, Option.some.injEq] at r1; exact r1,
    show ps'[i] = p' by rw [List.getElem?_eq_getElem h2, Option.some.injEq] at r2; exact r2]
  refine ⟨r3, r4, ?_, ?_, ?_, ?_, ?_, ?_⟩
  · have c1 := h.cell i p r1
    have c2 := h'.cell i p' r2
    have := cellS_same (meshes := meshes) hi p.base.layer p.base.elem.tri
    rw [c1, r3, r4, c2] at this
    simpa using this
  · funext n
    apply Option.ext
    intro j
    exact ⟨edge_same hk h h' r1 r2 n j, edge_same hk.symm h' h r2 r1 n j⟩
  · rw [h.top i p r1, h'.top i p' r2, r3]
  · rw [h.bot i p r1, h'.bot i p' r2, r3]
  · rw [h.up i p r1, h'.up i p' r2, r3, touching_congr g hkb r3 r4]
  · rw [h.down i p r1, h'.down i p' r2, r3, touching_congr g hkb r3 r4]
end

/-! ## resistances -/

/-- two models of the same meshes with the same materials at the same places and wires that differ in currents only -/
structure Pair (m m' : SModel ℚ) : Prop where
  base : totalPrisms m.off = totalPrisms m'.off
  prisms : List.Forall₂ Alike m.prisms m'.prisms
  lines : m.lines.map still = m'.lines.map still

/-- the resistances of the second model are not larger -/
structure LessR (m m' : SModel ℚ) : Prop where
  side : ∀ (i n : Nat) (p q : SPrism ℚ) (e : Fin 3) (t u t' u' : ℚ), m.prisms[i]? = some p → p.base.edge e = some n → m.prisms[n]? = some q →
    m'.sideR p q e t' u' ≤ m.sideR p q e t u
  contact : ∀ (p q : SPrism ℚ) (ratio t u t' u' : ℚ), 0 ≤ ratio → m'.contactR p q ratio t' u' ≤ m.contactR p q ratio t u
  half : ∀ l ∈ m.lines, ∀ t t' : ℚ, 1 / 2 * l.length / m'.wires.aveK l.mat t' / l.area ≤ 1 / 2 * l.length / m.wires.aveK l.mat t / l.area

/-- contacts have parts of the face that are not negative -/
def Parts (m : SModel ℚ) : Prop := ∀ p ∈ m.prisms, (∀ x ∈ p.up, 0 ≤ x.2) ∧ ∀ x ∈ p.down, 0 ≤ x.2

section
variable {m m' : SModel ℚ}

theorem pair_of {meshes : List Mesh} {info info' : Nat → Nat → Option (Cell ℚ)} {g : Tris ℚ} {ws ws' : List (Wire ℚ)} (hi : SameInfo info info')
    (hx : FromMeshes m g meshes info ws) (hx' : FromMeshes m' g meshes info' ws') (hw : ws.map rest = ws'.map rest) : Pair m m' := by
  obtain ⟨e1, e2, -⟩ := fromMeshes_facts hx
  obtain ⟨f1, f2, -⟩ := fromMeshes_facts hx'
  have ha := stacked_alike hi e2 f2
  have hb : totalPrisms m.off = totalPrisms m'.off := by rw [← e1, ← f1, ha.length_eq]
  refine ⟨hb, ha, ?_⟩
  have h1 := wires_still hb ws [] _ hx.lines
  have h2 := wires_still rfl ws' [] _ hx'.lines
  rw [hw, h2, Res.ok.injEq] at h1
  exact h1.symm

theorem touching_nonneg {g : Tris ℚ} {s : ℚ} (hg : g.Geometry m s) (ps : List (Prism ℚ)) (p : Prism ℚ) (l : Nat) : ∀ x ∈ touching g ps p l, 0 ≤ x.2 := by
  intro x hx
  unfold touching at hx
  rw [List.mem_filterMap] at hx
  obtain ⟨q, -, hq⟩ := hx
  split_ifs at hq
  unfold contact at hq
  split_ifs at hq with h2
  rw [Option.some.injEq] at hq
  rw [← hq]
  exact div_nonneg h2.2.le (hg.area _ _).le

theorem parts_of {meshes : List Mesh} {info : Nat → Nat → Option (Cell ℚ)} {g : Tris ℚ} {s : ℚ} {ws : List (Wire ℚ)} (hx : FromMeshes m g meshes info ws)
    (hg : g.Geometry m s) : Parts m := by
  obtain ⟨-, hst, -⟩ := fromMeshes_facts hx
  intro p hp
  obtain ⟨i, hi⟩ := List.mem_iff_getElem?.1 hp
  rw [hst.up i p hi, hst.down i p hi]
  refine ⟨?_, touching_nonneg hg _ _ _⟩
  split_ifs
  · simp
  · exact touching_nonneg hg _ _ _

theorem side_alike (m : SModel ℚ) {p p' q q' : SPrism ℚ} (hp : Alike p p') (hq : Alike q q') (e : Fin 3) (t u : ℚ) : m.sideR p' q' e t u = m.sideR p q e t u := by
  unfold SModel.sideR
  rw [hp.layer, hp.tri, hp.mat, hq.tri, hq.mat]

theorem contact_alike (m : SModel ℚ) {p p' q q' : SPrism ℚ} (hp : Alike p p') (hq : Alike q q') (ratio t u : ℚ) :
    m.contactR p' q' ratio t u = m.contactR p q ratio t u := by
  unfold SModel.contactR SModel.areaOf
  rw [hp.layer, hp.tri, hp.mat, hq.layer, hq.mat]

theorem get_alike (h : Pair m m') (i : Nat) : (m.prisms[i]? = none ∧ m'.prisms[i]? = none) ∨
    ∃ p p', m.prisms[i]? = some p ∧ m'.prisms[i]? = some p' ∧ Alike p p' := by
  have := h.prisms
  rw [List.forall₂_iff_get] at this
  by_cases hi : i < m.prisms.length
  · have hi' : i < m'.prisms.length := by omega
    exact .inr ⟨_, _, List.getElem?_eq_getElem hi, List.getElem?_eq_getElem hi', this.2 i hi hi'⟩
  · exact .inl ⟨List.getElem?_eq_none (by omega), List.getElem?_eq_none (by omega)⟩

theorem link_le (h : Pair m m') {T T' : List ℚ} (hl : T.length = T'.length) (i : Nat) (n : Option Nat) {f f' : SPrism ℚ → ℚ → ℚ}
    (hf : ∀ k q q' t t', n = some k → m.prisms[k]? = some q → m'.prisms[k]? = some q' → Alike q q' → f' q' t' ≤ f q t) :
    List.Forall₂ LeOp ((m.link T i n f).filter isR) ((m'.link T' i n f').filter isR) := by
  unfold SModel.link
  cases n with
  | none => exact List.Forall₂.nil
  | some n =>
    dsimp only
    split_ifs
    · rcases get_alike h n with ⟨h1, h2⟩ | ⟨q, q', h1, h2, h3⟩
      · rw [h1, h2]
        exact List.Forall₂.nil
      · rw [h1, h2]
        by_cases hn : n < T.length
        · rw [List.getElem?_eq_getElem hn, List.getElem?_eq_getElem (show n < T'.length by omega)]
          exact List.Forall₂.cons ⟨rfl, rfl, hf n q q' _ _ rfl h1 h2 h3⟩ List.Forall₂.nil
        · rw [List.getElem?_eq_none (show T.length ≤ n by omega), List.getElem?_eq_none (show T'.length ≤ n by omega)]
          exact List.Forall₂.nil
    · exact List.Forall₂.nil

theorem contact_le (h : Pair m m') (hr : LessR m m') {T T' : List ℚ} (hl : T.length = T'.length) (i : Nat) {p p' : SPrism ℚ} (hp : Alike p p') (t t' : ℚ)
    {x : Nat × ℚ} (hx : 0 ≤ x.2) : List.Forall₂ LeOp ((m.contactOp T i p t x).filter isR) ((m'.contactOp T' i p' t' x).filter isR) := by
  unfold SModel.contactOp
  split_ifs
  · exact List.Forall₂.nil
  · rcases get_alike h x.1 with ⟨h1, h2⟩ | ⟨q, q', h1, h2, h3⟩
    · rw [h1, h2]
      exact List.Forall₂.nil
    · rw [h1, h2]
      by_cases hn : x.1 < T.length
      · rw [List.getElem?_eq_getElem hn, List.getElem?_eq_getElem (show x.1 < T'.length by omega)]
        refine List.Forall₂.cons ⟨rfl, rfl, ?_⟩ List.Forall₂.nil
        rw [contact_alike m' hp h3]
        exact hr.contact p q x.2 _ _ _ _ hx
      · rw [List.getElem?_eq_none (show T.length ≤ x.1 by omega), List.getElem?_eq_none (show T'.length ≤ x.1 by omega)]
        exact List.Forall₂.nil

theorem face_noR (bc : Option (BC ℚ)) (i : Nat) (f g : ℚ → ℚ) : (faceOps bc i f g).filter isR = [] := by
  unfold faceOps
  split <;> rfl

theorem contacts_le (h : Pair m m') (hr : LessR m m') {T T' : List ℚ} (hl : T.length = T'.length) (i : Nat) {p p' : SPrism ℚ} (hp : Alike p p') (t t' : ℚ)
    (bc bc' : Option (BC ℚ)) {cs : List (Nat × ℚ)} (hc : ∀ x ∈ cs, 0 ≤ x.2) :
    List.Forall₂ LeOp ((m.contactsOps T i p t bc cs).filter isR) ((m'.contactsOps T' i p' t' bc' cs).filter isR) := by
  unfold SModel.contactsOps
  have hno : ∀ (m : SModel ℚ) (p : SPrism ℚ) (bc : Option (BC ℚ)), (if 0 < free cs then
      faceOps bc i (fun v => v * m.areaOf p * free cs) (fun v => v * m.areaOf p * free cs) else []).filter isR = [] := by
    intro m p bc
    split_ifs
    · exact face_noR _ _ _ _
    · rfl
  rw [List.filter_append, List.filter_append, hno, hno, List.append_nil, List.append_nil]
  exact flat_le (R := Eq) (List.forall₂_same.2 fun _ _ => rfl) fun a ha b hab => hab ▸ contact_le h hr hl i hp t t' (hc a ha)

theorem power_noR (i : Nat) (p : Prism ℚ) (t : ℚ) : (powerOps i p t).filter isR = [] := PrismResp.power_noR i p t

theorem elem_le (h : Pair m m') (hr : LessR m m') (hpart : Parts m) {T T' : List ℚ} (hl : T.length = T'.length) (i : Nat) :
    List.Forall₂ LeOp ((m.elemOps T i).filter isR) ((m'.elemOps T' i).filter isR) := by
  unfold SModel.elemOps
  rcases get_alike h i with ⟨h1, h2⟩ | ⟨p, p', h1, h2, h3⟩
  · rw [h1, h2]
    exact List.Forall₂.nil
  · rw [h1, h2]
    by_cases hi : i < T.length
    · rw [List.getElem?_eq_getElem hi, List.getElem?_eq_getElem (show i < T'.length by omega)]
      dsimp only
      unfold SModel.restOps
      have hparts := hpart p (List.mem_of_getElem? h1)
      simp only [List.filter_append, power_noR, List.nil_append]
      rw [← h3.edge]
      refine List.rel_append List.Forall₂.nil (List.rel_append ?_ (List.rel_append ?_ (List.rel_append ?_ (List.rel_append ?_ ?_))))
      · exact link_le h hl i _ fun k q q' t t' hk hq hq' ha => by rw [side_alike m' h3 ha]; exact hr.side i k p q 0 _ _ _ _ h1 hk hq
      · exact link_le h hl i _ fun k q q' t t' hk hq hq' ha => by rw [side_alike m' h3 ha]; exact hr.side i k p q 1 _ _ _ _ h1 hk hq
      · exact link_le h hl i _ fun k q q' t t' hk hq hq' ha => by rw [side_alike m' h3 ha]; exact hr.side i k p q 2 _ _ _ _ h1 hk hq
      · unfold SModel.topOps
        rw [← h3.top, ← h3.up]
        cases p.base.top with
        | none => dsimp only; rw [face_noR, face_noR]; exact List.Forall₂.nil
        | some n =>
          dsimp only
          split_ifs
          · exact contacts_le h hr hl i h3 _ _ _ _ hparts.1
          · exact List.Forall₂.nil
      · unfold SModel.botOps
        rw [← h3.bot, ← h3.down]
        cases p.base.bot with
        | none => dsimp only; rw [face_noR, face_noR]; exact List.Forall₂.nil
        | some n =>
          dsimp only
          split_ifs
          · exact contacts_le h hr hl i h3 _ _ _ _ hparts.2
          · exact List.Forall₂.nil
    · rw [List.getElem?_eq_none (show T.length ≤ i by omega), List.getElem?_eq_none (show T'.length ≤ i by omega)]
      exact List.Forall₂.nil

theorem line_le (h : Pair m m') (hr : LessR m m') {T T' : List ℚ} (hlen : T.length = T'.length) {l l' : Line ℚ} (hl : l ∈ m.lines) (hs : still l = still l') :
    List.Forall₂ LeOp ((m.wires.lineOps T l).filter isR) ((m'.wires.lineOps T' l').filter isR) := by
  have hp : PrismResp.Pair { m.wires with prisms := [] } { m'.wires with prisms := [] } := ⟨h.base, List.Forall₂.nil, h.lines⟩
  have hq : PrismResp.LessR { m.wires with prisms := [] } { m'.wires with prisms := [] } := by
    refine ⟨fun i n p q e t u t' u' hx => by simp at hx, fun p q t u t' u' => ?_, hr.half⟩
    unfold PModel.vertR SModel.wires
    simp
  exact PrismResp.line_le hp hq hlen hl hs

/-- the resistors of the networks of two models -/
theorem ns_lower (h : Pair m m') (hr : LessR m m') (hpart : Parts m) (hb : m.blocksOps = []) (hb' : m'.blocksOps = []) {minR : ℚ} (hm : 0 < minR)
    {T T' : List ℚ} {a b : Network ℚ} (ha : m.build minR T = .ok (some a)) (hbb : m'.build minR T' = .ok (some b)) :
    List.Forall₂ LeNs (a.map Node.ns) (b.map Node.ns) := by
  obtain ⟨l1, r1⟩ := stack_run ha
  obtain ⟨l2, r2⟩ := stack_run hbb
  have hlines : m.lines.length = m'.lines.length := by simpa using congrArg List.length h.lines
  have htot : m.total = m'.total := by unfold SModel.total; rw [hlines, h.base]
  have hlen : T.length = T'.length := by rw [l1, l2, htot]
  rw [← htot] at r2
  refine run_le hm ?_ r1 r2
  unfold SModel.ops SModel.rangeOps
  rw [hb, hb', List.append_nil, List.append_nil, List.filter_append, List.filter_append, ← h.base]
  refine List.rel_append ?_ ?_
  · exact flat_le (R := Eq) (List.forall₂_same.2 fun _ _ => rfl) fun i _ j hij => hij ▸ elem_le h hr hpart hlen i
  · refine flat_le (R := fun l l' => still l = still l') ?_ fun l hl l' hs => line_le h hr hlen hl hs
    have := h.lines
    rw [← List.forall₂_eq_eq_eq, List.forall₂_map_left_iff, List.forall₂_map_right_iff] at this
    exact this
end

/-! ## heat of the elements -/

section
variable {c : CutM} {v : View} {m m' : SModel ℚ} {g : Tris ℚ} {s : ℚ} {meshes : List Mesh} {ws : List (Wire ℚ)} {L L' : Nat → ℚ → ℚ} {I I' : Nat → ℚ}

/-- the triangles of a block, as the extraction finds them -/
theorem found (h : Proper (tabled c L) v m g s meshes (driven ws I)) {e : Nat × Block} (he : e ∈ c.blocks) {l t : Nat} (ht : t < (meshes.getD l []).length) :
    (if Solid c e.1 ∧ c.cut.layerByHeight e.2.range.high = some l ∧ search c v l t = some e.1 then v.area l t / c.area e.1 else 0) = part c v l t e := by
  unfold part
  obtain ⟨k, -, hw⟩ := h.whole _ (mem_tabled he L)
  have hsolid : Solid c e.1 := hw.solid
  have htop : c.cut.layerByHeight e.2.range.high = some k := hw.top
  by_cases hl : c.cut.layerByHeight e.2.range.high = some l
  · have hkl : k = l := by rw [htop, Option.some.injEq] at hl; exact hl
    subst hkl
    have hiff : search c v k t = some e.1 ↔ v.contains k t e.1 = true := by
      constructor
      · intro hs
        obtain ⟨ps, -, -, hc, -⟩ := search_some (c := c) h.hits hs
        exact hc
      · intro hc
        obtain ⟨ps, h1, h2, h3⟩ := hw.listed
        exact search_least (c := c) h.hits h1 h2 hc fun i hi hne hci => h3 t ht hc i hi hne hci
    simp only [hsolid, hl, true_and, hiff]
  · simp [hl]

theorem part_nonneg (h : Proper (tabled c L) v m g s meshes (driven ws I)) {e : Nat × Block} (he : e ∈ c.blocks) (l t : Nat) : 0 ≤ part c v l t e := by
  unfold part
  obtain ⟨k, -, hw⟩ := h.whole _ (mem_tabled he L)
  have : 0 ≤ (tabled c L).area e.1 := whole_area h.areas hw
  replace this : 0 ≤ c.area e.1 := this
  split_ifs
  · exact div_nonneg (h.areas l t) this
  · exact le_refl _

/-- the prism of a triangle -/
theorem num_prism (h : Proper (tabled c L) v m g s meshes (driven ws I)) {l t : Nat} (hc : (cellS meshes (infoOf c v) l t).isSome = true) :
    ∃ p, m.prisms[num m.prisms l t]? = some p ∧ p.base.layer = l ∧ p.base.elem.tri = t := by
  obtain ⟨-, hst, -⟩ := fromMeshes_facts h.made
  rw [someS_same (tabled_info c v L)] at hc
  obtain ⟨y, hy⟩ := Option.isSome_iff_exists.1 hc
  obtain ⟨i, p, hp, h1, h2⟩ := hst.all _ _ _ hy
  have := num_eq hst hp
  rw [h1, h2] at this
  exact ⟨p, by rw [this]; exact hp, h1, h2⟩

/-- the heat of a prism -/
theorem prism_heat (h : Proper (tabled c L) v m g s meshes (driven ws I)) {minR : ℚ} {T : List ℚ} {net : Network ℚ} (hb : m.build minR T = .ok (some net))
    {l t : Nat} (hc : (cellS meshes (infoOf c v) l t).isSome = true) :
    hfOf net (num m.prisms l t) = (c.blocks.map fun e => part c v l t e * L e.1 (T.getD (num m.prisms l t) 0)).sum := by
  obtain ⟨hlenp, hst, -⟩ := fromMeshes_facts h.made
  obtain ⟨p, hp, h1, h2⟩ := num_prism h hc
  generalize num m.prisms l t = i at hp ⊢
  have hlen := (stack_run hb).1
  have hilt : i < T.length := by
    have := (List.getElem?_eq_some_iff.1 hp).1
    unfold SModel.total at hlen
    omega
  have hT : T[i]? = some (T.getD i 0) := by
    rw [List.getD_eq_getElem?_getD, List.getElem?_eq_getElem hilt]; rfl
  rw [prism_hf h hb hp hT]
  have hy := hst.cell i p hp
  rw [h1, h2] at hy
  obtain ⟨mesh, hmesh, hlt, hinfo⟩ := cellS_some hy
  have hlt' : t < (meshes.getD l []).length := by rw [List.getD_eq_getElem?_getD, hmesh]; exact hlt
  have hsum := cell_heat (tabled c L) v (fun _ _ _ lut => lut (T.getD i 0)) h.blocks l t (elemS meshes (infoOf (tabled c L) v) l t) fun y => ⟨rfl, rfl⟩
  rw [hinfo] at hsum
  have hleft : (p.base.elem.cell.power.toList.map fun w => w.2.2 (T.getD i 0) * w.1).sum =
      elemHeat (fun _ _ _ lut => lut (T.getD i 0)) l (elemS meshes (infoOf (tabled c L) v) l t p.base.elem.cell) := by
    unfold elemHeat
    show _ = match p.base.elem.cell.power with | some (ratio, scen, lut) => ratio * lut (T.getD i 0) | none => 0
    cases p.base.elem.cell.power with
    | none => rfl
    | some w => simp [mul_comm]
  rw [hleft]
  have hs2 : elemHeat (fun _ _ _ lut => lut (T.getD i 0)) l (elemS meshes (infoOf (tabled c L) v) l t p.base.elem.cell) = _ := hsum
  rw [hs2]
  show (((c.blocks.map fun e => (e.1, { e.2 with lut := L e.1 })).map fun e : Nat × Block => _).sum) = _
  rw [List.map_map]
  congr 1
  apply List.map_congr_left
  intro e he
  rw [← found h he hlt']
  show (if Solid c e.1 ∧ c.cut.layerByHeight e.2.range.high = some l ∧ search c v l t = some e.1 then v.area l t / c.area e.1 * L e.1 (T.getD i 0) else 0) = _
  split_ifs
  · rfl
  · rw [zero_mul]

/-- the lines of driven wires -/
theorem line_segments (h : Proper (tabled c L) v m g s meshes (driven ws I)) :
    m.lines.map Line.data = (segments ws).map fun g => (g.2.1, I g.1, g.2.2.1, g.2.2.2) := by
  rw [data_wires _ _ _ _ h.made.lines, List.map_nil, List.nil_append]
  unfold driven segments
  rw [List.flatMap_map, List.map_flatMap]
  congr 1
  funext p
  rw [List.map_map]
  rfl

theorem lines_count (h : Proper (tabled c L) v m g s meshes (driven ws I)) : m.lines.length = (segments ws).length := by
  simpa using congrArg List.length (line_segments h)

theorem total_eq (h : Proper (tabled c L) v m g s meshes (driven ws I)) : m.total = m.prisms.length + (segments ws).length := by
  obtain ⟨hlenp, -, -⟩ := fromMeshes_facts h.made
  unfold SModel.total
  rw [← lines_count h, hlenp]
  omega

/-- the heat of a segment of a wire -/
theorem line_heat (h : Proper (tabled c L) v m g s meshes (driven ws I)) {minR : ℚ} {T : List ℚ} {net : Network ℚ} (hb : m.build minR T = .ok (some net))
    {r : Nat → ℚ} (hr : ∀ k T, 0 ≤ r k ∧ m.resist k T = r k) {n : Nat} {w : Nat × Nat × ℚ × ℚ} (hw : (segments ws)[n]? = some w) :
    hfOf net (m.prisms.length + n) = I w.1 ^ 2 * (r w.2.1 * w.2.2.1 / w.2.2.2) := by
  have hn : n < m.lines.length := by rw [lines_count h]; exact (List.getElem?_eq_some_iff.1 hw).1
  obtain ⟨-, a1, a2⟩ := stack_lines_hf h hb (rlo := r) (rhi := r) (fun k T => ⟨(hr k T).1, (hr k T).2.ge, (hr k T).2.le⟩) hn
  rw [(fromMeshes_facts h.made).1, le_antisymm a2 a1]
  have := congrArg (fun l => l[n]?) (line_segments h)
  simp only [List.getElem?_map, hw, Option.map_some, List.getElem?_eq_getElem hn, Option.some.injEq] at this
  rw [this]
  rfl

theorem net_length (h : Proper (tabled c L) v m g s meshes (driven ws I)) {minR : ℚ} {T : List ℚ} {net : Network ℚ} (hb : m.build minR T = .ok (some net)) :
    net.length = m.total := by
  obtain ⟨net', hb', hl'⟩ := c78_builds h.made minR (stack_run hb).1
  rw [hb, Res.ok.injEq, Option.some.injEq] at hb'
  rw [hb', hl']

/-- every element is a prism or a segment -/
theorem elem_cases (h : Proper (tabled c L) v m g s meshes (driven ws I)) {i : Nat} (hi : i < m.total) :
    (∃ l t, (cellS meshes (infoOf c v) l t).isSome = true ∧ i = num m.prisms l t) ∨ ∃ n w, (segments ws)[n]? = some w ∧ i = m.prisms.length + n := by
  obtain ⟨-, hst, -⟩ := fromMeshes_facts h.made
  rw [total_eq h] at hi
  by_cases hp : i < m.prisms.length
  · have hq := List.getElem?_eq_getElem hp
    refine .inl ⟨m.prisms[i].base.layer, m.prisms[i].base.elem.tri, ?_, (num_eq hst hq).symm⟩
    rw [someS_same (tabled_info c v L), hst.cell i _ hq]
    rfl
  · have hn : i - m.prisms.length < (segments ws).length := by omega
    exact .inr ⟨i - m.prisms.length, _, List.getElem?_eq_getElem hn, by omega⟩

theorem ground (h : Proper (tabled c L) v m g s meshes (driven ws I)) {minR : ℚ} (hm : 0 < minR) {T : List ℚ} {net : Network ℚ}
    (hb : m.build minR T = .ok (some net)) : Grounded net := by
  obtain ⟨net', hb', hg, -⟩ := c78_solvable h.made h.geometry h.nbs h.cooled hm (stack_run hb).1 0
  rw [hb, Res.ok.injEq, Option.some.injEq] at hb'
  rw [hb']
  exact hg

/-! ## transfer coefficients -/

theorem more_same (h : SameBC m m') : MoreBC m m' := by
  have ho : ∀ o : Option (BC ℚ), Option.Rel More o o := by
    intro o
    cases o with
    | none => exact .none
    | some b => exact .some (more_refl b)
  exact ⟨h.top ▸ ho _, h.bot ▸ ho _⟩

/-- a share is not smaller for a value that is not smaller, and is there for the same areas -/
theorem share_more {o o' : Option (BC ℚ)} (h : Option.Rel More o o') (a : ℚ) (hp : ∀ b, o = some b → b.type = .htc → ∀ x, b.value = some x → 0 < x) :
    share .htc o a ≤ share .htc o' a ∧ (0 < share .htc o a ↔ 0 < share .htc o' a) ∧ 0 ≤ share .htc o a := by
  cases h with
  | none => exact ⟨le_refl _, Iff.rfl, le_refl _⟩
  | @some b b' hb =>
    obtain ⟨ty, x⟩ := b
    obtain ⟨ty', x'⟩ := b'
    obtain ⟨h1, h2⟩ := hb
    dsimp only at h1 h2
    subst h1
    cases h2 with
    | none => exact ⟨le_refl _, Iff.rfl, le_refl _⟩
    | @some x x' hx =>
      unfold share
      dsimp only
      by_cases hc : ty = .htc ∧ 0 < a
      · rw [if_pos hc, if_pos hc]
        have hx0 := hp _ rfl hc.1 x rfl
        exact ⟨mul_le_mul_of_nonneg_right hx hc.2.le, iff_of_true (mul_pos hx0 hc.2) (mul_pos (hx0.trans_le hx) hc.2), (mul_pos hx0 hc.2).le⟩
      · rw [if_neg hc, if_neg hc]
        exact ⟨le_refl _, Iff.rfl, le_refl _⟩

theorem pair (h : Proper (tabled c L) v m g s meshes (driven ws I)) (h' : Proper (tabled c L') v m' g s meshes (driven ws I')) : Pair m m' :=
  pair_of (fun l t => ((tabled_info c v L) l t).symm.trans ((tabled_info c v L') l t)) h.made h'.made (driven_rest ws I I')

theorem alike_key {p p' : SPrism ℚ} (h : Alike p p') : key p = key p' := Prod.ext h.layer h.tri

theorem pair_keys (h : Pair m m') : m.prisms.map key = m'.prisms.map key := by
  rw [← List.forall₂_eq_eq_eq, List.forall₂_map_left_iff, List.forall₂_map_right_iff]
  exact h.prisms.imp fun _ _ => alike_key

theorem covered_same (h : Pair m m') {p p' : SPrism ℚ} (hp : Alike p p') (l : Nat) : covered g m.prisms p l = covered g m'.prisms p' l := by
  have e : ∀ (qs : List (SPrism ℚ)) (p : SPrism ℚ), covered g qs p l = ((qs.map key).map fun x => if x.1 = l then g.overlap p.base.layer p.base.elem.tri l x.2 else 0).sum := by
    intro qs p
    rw [List.map_map]
    rfl
  rw [e, e, pair_keys h, hp.layer, hp.tri]

theorem lost_le (h : Proper (tabled c L) v m g s meshes (driven ws I)) (hpair : Pair m m') (hm : MoreBC m m') {p p' : SPrism ℚ} (hp : Alike p p') :
    lost g m s p ≤ lost g m' s p' := by
  have b1 : bareTop g m.prisms p = bareTop g m'.prisms p' := by unfold bareTop; rw [covered_same hpair hp, hp.layer, hp.tri]
  have b2 : bareBot g m.prisms p = bareBot g m'.prisms p' := by unfold bareBot; rw [covered_same hpair hp, hp.layer, hp.tri]
  unfold lost
  rw [← b1, ← b2]
  have s1 := share_more hm.top (s * bareTop g m.prisms p) fun b hb => h.cooled.positive b (.inl hb)
  have s2 := share_more hm.bot (s * bareBot g m.prisms p) fun b hb => h.cooled.positive b (.inr hb)
  by_cases hpos : 0 < share .htc m.botBC (s * bareBot g m.prisms p)
  · rw [if_pos hpos, if_pos (s2.2.1.1 hpos)]
    exact s2.1
  · rw [if_neg hpos, if_neg (fun x => hpos (s2.2.1.2 x))]
    exact s1.1

theorem htc_le (h : Proper (tabled c L) v m g s meshes (driven ws I)) (h' : Proper (tabled c L') v m' g s meshes (driven ws I'))
    (hm : MoreBC m m') {minR : ℚ} {T T' : List ℚ} {a b : Network ℚ} (ha : m.build minR T = .ok (some a)) (hb : m'.build minR T' = .ok (some b)) (i : Nat) :
    htcOf a i ≤ htcOf b i := by
  have hpair := pair h h'
  rcases get_alike hpair i with ⟨h1, h2⟩ | ⟨p, p', h1, h2, h3⟩
  · rw [List.getElem?_eq_none_iff] at h1 h2
    rw [stack_line_htc h.made ha (by rw [← (fromMeshes_facts h.made).1]; exact h1), stack_line_htc h'.made hb (by rw [← (fromMeshes_facts h'.made).1]; exact h2)]
  · rw [prism_htc h ha h1, prism_htc h' hb h2]
    exact lost_le h hpair hm h3

/-! ## pairs of networks -/

theorem shape_symm (h : Shape m m') : Shape m' m := ⟨h.area.symm, h.edgeLen.symm, h.toSide.symm, h.dist.symm, h.height.symm⟩

theorem bc_symm (h : SameBC m m') : SameBC m' m := ⟨h.top.symm, h.bot.symm⟩

theorem less_same (hs : Shape m m') (hk : SameK m m') : LessR m m' := by
  refine ⟨fun i n p q e t u t' u' _ _ _ => le_of_eq ?_, fun p q a t u t' u' _ => le_of_eq ?_, fun l _ t t' => le_of_eq ?_⟩
  · unfold SModel.sideR
    rw [hs.height, hs.edgeLen, hs.toSide, hs.dist, hk _ t t', hk _ u u']
  · unfold SModel.contactR SModel.areaOf
    rw [hs.height, hs.area, hk _ t t', hk _ u u']
  · unfold PModel.aveK SModel.wires
    dsimp only
    rw [hk _ t t']

theorem lower_of (h : Proper (tabled c L) v m g s meshes (driven ws I)) (h' : Proper (tabled c L') v m' g s meshes (driven ws I')) (hr : LessR m m')
    {minR : ℚ} (hm : 0 < minR) {T T' : List ℚ} {a b : Network ℚ} (ha : m.build minR T = .ok (some a)) (hb : m'.build minR T' = .ok (some b)) :
    List.Forall₂ LeNs (a.map Node.ns) (b.map Node.ns) :=
  ns_lower (pair h h') hr (parts_of h.made h.geometry) (stacked_blocks (fromMeshes_facts h.made).2.1) (stacked_blocks (fromMeshes_facts h'.made).2.1) hm ha hb

/-- the resistors of models of the same form and materials -/
theorem same_ns (h : Proper (tabled c L) v m g s meshes (driven ws I)) (h' : Proper (tabled c L') v m' g s meshes (driven ws I')) (hs : Shape m m')
    (hk : SameK m m') {minR : ℚ} (hm : 0 < minR) {T T' : List ℚ} {a b : Network ℚ} (ha : m.build minR T = .ok (some a)) (hb : m'.build minR T' = .ok (some b)) :
    a.length = b.length ∧ ∀ (i : Nat) (n n' : Node ℚ), a[i]? = some n → b[i]? = some n' → n.ns = n'.ns :=
  ns_eq (lower_of h h' (less_same hs hk) hm ha hb) (lower_of h' h (less_same (shape_symm hs) fun mat t t' => (hk mat t' t).symm) hm hb ha)

theorem same_net (h : Proper (tabled c L) v m g s meshes (driven ws I)) (h' : Proper (tabled c L') v m' g s meshes (driven ws I')) (hs : Shape m m')
    (hk : SameK m m') (hbc : SameBC m m') {minR : ℚ} (hm : 0 < minR) {T T' : List ℚ} {a b : Network ℚ} (ha : m.build minR T = .ok (some a))
    (hb : m'.build minR T' = .ok (some b)) : Same a b := by
  obtain ⟨h1, h2⟩ := same_ns h h' hs hk hm ha hb
  exact ⟨h1, h2, fun i => le_antisymm (htc_le h h' (more_same hbc) ha hb i) (htc_le h' h (more_same (bc_symm hbc)) hb ha i)⟩

theorem num_pair (h : Proper (tabled c L) v m g s meshes (driven ws I)) (h' : Proper (tabled c L') v m' g s meshes (driven ws I')) :
    m.prisms.length = m'.prisms.length ∧ ∀ l t, num m.prisms l t = num m'.prisms l t := by
  have hp := pair h h'
  exact ⟨hp.prisms.length_eq, num_same (pair_keys hp)⟩

/-! ## sums -/

theorem sum_part_blocks (P : Nat → ℚ) (z : Nat → ℚ) (ps : List (SPrism ℚ)) :
    (c.blocks.map fun e => P e.1 * mean c v meshes ps e z).sum =
      ∑ l ∈ range meshes.length, ∑ t ∈ range (meshes.getD l []).length, (c.blocks.map fun e => part c v l t e * P e.1).sum * z (num ps l t) := by
  have e1 : ∀ l t, (c.blocks.map fun e => part c v l t e * P e.1).sum * z (num ps l t) = (c.blocks.map fun e => P e.1 * (part c v l t e * z (num ps l t))).sum := by
    intro l t
    rw [← List.sum_map_mul_right]
    congr 1
    apply List.map_congr_left
    intro e _
    ring
  simp only [e1]
  have e2 : ∀ l ∈ range meshes.length, ∑ t ∈ range (meshes.getD l []).length, (c.blocks.map fun e => P e.1 * (part c v l t e * z (num ps l t))).sum =
      (c.blocks.map fun e => ∑ t ∈ range (meshes.getD l []).length, P e.1 * (part c v l t e * z (num ps l t))).sum :=
    fun l _ => sum_list_comm (range (meshes.getD l []).length) c.blocks fun t e => P e.1 * (part c v l t e * z (num ps l t))
  rw [Finset.sum_congr rfl e2,
    sum_list_comm (range meshes.length) c.blocks fun l e => ∑ t ∈ range (meshes.getD l []).length, P e.1 * (part c v l t e * z (num ps l t))]
  congr 1
  apply List.map_congr_left
  intro e _
  unfold mean
  rw [Finset.mul_sum]
  refine Finset.sum_congr rfl fun l _ => ?_
  rw [Finset.mul_sum]

/-- nothing lies where there is no element -/
theorem part_none (h : Proper (tabled c L) v m g s meshes (driven ws I)) {e : Nat × Block} (he : e ∈ c.blocks) {l t : Nat} (ht : t < (meshes.getD l []).length)
    (hc : (cellS meshes (infoOf c v) l t).isSome = false) : part c v l t e = 0 := by
  rw [← found h he ht]
  split_ifs with hcond
  · obtain ⟨h1, -, h3⟩ := hcond
    unfold cellS at hc
    cases hmesh : meshes[l]? with
    | none => rw [List.getD_eq_getElem?_getD, hmesh] at ht; simp at ht
    | some mesh =>
      rw [List.getD_eq_getElem?_getD, hmesh, Option.getD_some] at ht
      rw [hmesh] at hc
      dsimp only at hc
      rw [if_pos ht] at hc
      unfold infoOf at hc
      rw [h3] at hc
      simp only [h1.1, Bool.false_eq_true, if_false, if_neg (fun hh : c.noMat = c.mat e.1 => h1.2 hh.symm), Option.isSome_some] at hc
      cases hc
  · rfl

/-- the heat of the network times `z` -/
theorem net_weighted (h : Proper (tabled c L) v m g s meshes (driven ws I)) {P : Nat → ℚ} (hP : ∀ e ∈ c.blocks, ∀ T, L e.1 T = P e.1) {minR : ℚ} {T : List ℚ}
    {net : Network ℚ} (hb : m.build minR T = .ok (some net)) {r : Nat → ℚ} (hr : ∀ k T, 0 ≤ r k ∧ m.resist k T = r k) (z : Nat → ℚ) :
    ∑ i ∈ range net.length, hfOf net i * z i = weighted c v meshes m.prisms ws r P I z := by
  obtain ⟨-, hst, -⟩ := fromMeshes_facts h.made
  rw [net_length h hb, total_eq h, Finset.sum_range_add]
  unfold weighted
  congr 1
  · rw [sum_part_blocks, sum_stack hst]
    refine Finset.sum_congr rfl fun l hl => ?_
    obtain ⟨mesh, hmesh⟩ : ∃ mesh, meshes[l]? = some mesh := ⟨_, List.getElem?_eq_getElem (Finset.mem_range.1 hl)⟩
    have hg : meshes.getD l [] = mesh := by rw [List.getD_eq_getElem?_getD, hmesh]; rfl
    have hsub : range (meshes.getD l []).length ⊆ range (bound meshes) := by
      intro t ht
      have := le_bound hmesh
      rw [hg, Finset.mem_range] at ht
      exact Finset.mem_range.2 (by omega)
    rw [← Finset.sum_subset hsub]
    · refine Finset.sum_congr rfl fun t ht => ?_
      rw [Finset.mem_range] at ht
      have hsame := someS_same (meshes := meshes) (tabled_info c v L) l t
      cases hc : cellS meshes (infoOf (tabled c L) v) l t with
      | none =>
        rw [hc] at hsame
        have : (c.blocks.map fun e => part c v l t e * P e.1).sum = 0 := by
          apply List.sum_eq_zero
          intro x hx
          rw [List.mem_map] at hx
          obtain ⟨e, he, rfl⟩ := hx
          rw [part_none h he ht hsame, zero_mul]
        rw [this, zero_mul]
        rfl
      | some y =>
        rw [hc] at hsame
        simp only [Option.map_some, Option.getD_some]
        rw [prism_heat h hb hsame]
        congr 2
        apply List.map_congr_left
        intro e he
        rw [hP e he]
    · intro t _ ht
      rw [Finset.mem_range, hg] at ht
      unfold cellS
      rw [hmesh]
      dsimp only
      rw [if_neg ht]
      rfl
  · rw [sum_zipIdx (fun (w : Nat × Nat × ℚ × ℚ) n => I w.1 ^ 2 * (r w.2.1 * w.2.2.1 / w.2.2.2) * z (m.prisms.length + n)) (segments ws)]
    refine Finset.sum_congr rfl fun n hn => ?_
    have hw := List.getElem?_eq_getElem (Finset.mem_range.1 hn)
    rw [line_heat h hb hr hw, hw]
    rfl

theorem weighted_same (h : Proper (tabled c L) v m g s meshes (driven ws I)) (h' : Proper (tabled c L') v m' g s meshes (driven ws I')) (r P J z : Nat → ℚ) :
    weighted c v meshes m.prisms ws r P J z = weighted c v meshes m'.prisms ws r P J z := by
  obtain ⟨h1, h2⟩ := num_pair h h'
  unfold weighted mean
  simp only [h1, h2]

/-! ## conduction -/

theorem less_more (h : Proper (tabled c L) v m g s meshes (driven ws I)) (hs : Shape m m') (hz : Sized m meshes) (hk : MoreK m m') : LessR m m' := by
  refine ⟨fun i n p q e t u t' u' hp he hq => ?_, fun p q a t u t' u' ha => ?_, fun l hl t t' => ?_⟩
  · have hd : m.toSide p.base.layer p.base.elem.tri e ≤ m.dist p.base.layer p.base.elem.tri q.base.elem.tri := by
      obtain ⟨-, hst, -⟩ := fromMeshes_facts h.made
      obtain ⟨q', hq', -, hn⟩ := (hst.edge i n p e hp).1 he
      rw [hq, Option.some.injEq] at hq'
      rw [hq']
      exact hz.dist _ _ _ _ hn
    unfold SModel.sideR
    rw [← hs.height, ← hs.edgeLen, ← hs.toSide, ← hs.dist]
    dsimp only
    have ha : 0 ≤ m.height p.base.layer * m.edgeLen p.base.layer p.base.elem.tri e := mul_nonneg (hz.height _) (hz.edgeLen _ _ _)
    have k1 : ∀ mat t t', 0 < 1 / 2 * (m.k mat t 0 + m.k mat t 1) ∧ 1 / 2 * (m.k mat t 0 + m.k mat t 1) ≤ 1 / 2 * (m'.k mat t' 0 + m'.k mat t' 1) := by
      intro mat t t'
      have a0 := hk mat t t' 0
      have a1 := hk mat t t' 1
      constructor <;> linarith [a0.1, a0.2, a1.1, a1.2]
    exact add_le_add (div_le_div_of_nonneg_right (div_le (hz.toSide _ _ _) (k1 _ t t').1 (k1 _ t t').2) ha)
      (div_le_div_of_nonneg_right (div_le (sub_nonneg.2 hd) (k1 _ u u').1 (k1 _ u u').2) ha)
  · unfold SModel.contactR SModel.areaOf
    rw [← hs.height, ← hs.area]
    have hh : ∀ l, 0 ≤ 1 / 2 * m.height l := fun l => mul_nonneg (by norm_num) (hz.height l)
    have harea : 0 ≤ m.area p.base.layer p.base.elem.tri := by
      rw [h.geometry.metre]
      exact (mul_pos h.geometry.scale (h.geometry.area _ _)).le
    exact div_le_div_of_nonneg_right (add_le_add (div_le (hh _) (hk _ t t' 2).1 (hk _ t t' 2).2) (div_le (hh _) (hk _ u u' 2).1 (hk _ u u' 2).2))
      (mul_nonneg harea ha)
  · obtain ⟨d1, d2⟩ := line_lengths h hl
    have k1 : 0 < m.wires.aveK l.mat t ∧ m.wires.aveK l.mat t ≤ m'.wires.aveK l.mat t' := by
      unfold PModel.aveK SModel.wires
      dsimp only
      have a0 := hk l.mat t t' 0
      have a1 := hk l.mat t t' 1
      have a2 := hk l.mat t t' 2
      constructor <;> linarith [a0.1, a0.2, a1.1, a1.2, a2.1, a2.2]
    exact div_le_div_of_nonneg_right (div_le (mul_nonneg (by norm_num) d1) k1.1 k1.2) d2

/-! ## the claims -/

/-- C139, existence: every proper stackup prism model has steady temperatures -/
theorem c139_exists (h : Proper c v m g s meshes ws) {minR : ℚ} (hm : 0 < minR) (refT : ℚ) : ∃ x, Steady minR refT m x := by
  obtain ⟨net, hb, -, x, hx, -⟩ := c78_solvable h.made h.geometry h.nbs h.cooled hm (iniT := List.replicate m.total refT) (by simp) refT
  exact ⟨x, _, net, hb, hx⟩

/-- C139, power and current: if no block has less power, whatever the temperatures, and no wire carries less current, then no element is colder. -/
theorem c139_power (h : Proper (tabled c L) v m g s meshes (driven ws I)) (h' : Proper (tabled c L') v m' g s meshes (driven ws I')) (hs : Shape m m')
    (hk : SameK m m') (hbc : SameBC m m') (hL : ∀ e ∈ c.blocks, ∀ T T', L e.1 T ≤ L' e.1 T') (hI : ∀ j, |I j| ≤ |I' j|) {r : Nat → ℚ}
    (hr : ∀ k T, 0 ≤ r k ∧ m.resist k T = r k ∧ m'.resist k T = r k) {minR : ℚ} (hm : 0 < minR) {refT : ℚ} {x y : Nat → ℚ} (hx : Steady minR refT m x)
    (hy : Steady minR refT m' y) : ∀ i < m.total, x i ≤ y i := by
  obtain ⟨T, a, ha, sx⟩ := hx
  obtain ⟨T', b, hb, sy⟩ := hy
  obtain ⟨hn, hnum⟩ := num_pair h h'
  have hl := net_length h ha
  rw [← hl]
  refine c126_monotone (ground h hm ha) (same_net h h' hs hk hbc hm ha hb) (fun i hi => ?_) sx sy
  rw [hl] at hi
  rcases elem_cases h hi with ⟨l, t, hc, rfl⟩ | ⟨n, w, hw, rfl⟩
  · rw [prism_heat h ha hc, hnum, prism_heat h' hb hc]
    exact PrismBal.list_sum_le fun e he => mul_le_mul_of_nonneg_left (hL e he _ _) (part_nonneg h he l t)
  · rw [line_heat h ha (fun k T => ⟨(hr k T).1, (hr k T).2.1⟩) hw, hn, line_heat h' hb (fun k T => ⟨(hr k T).1, (hr k T).2.2⟩) hw]
    refine mul_le_mul_of_nonneg_right (sq_le_sq.2 (hI _)) ?_
    have hmem := List.mem_of_getElem? hw
    unfold segments at hmem
    rw [List.mem_flatMap] at hmem
    obtain ⟨⟨w', j⟩, hw', hgw⟩ := hmem
    rw [List.mem_map] at hgw
    obtain ⟨s', -, rfl⟩ := hgw
    have hwires := h.wires { w' with current := I j } (List.mem_map_of_mem (f := fun p : Wire ℚ × Nat => { p.1 with current := I p.2 }) hw')
    exact div_nonneg (mul_nonneg (hr w'.mat 0).1 (hwires.2 s')) hwires.1

/-- C139, uniqueness: with conductivities, powers and resistivities that do not depend on the temperature a model has one vector of steady temperatures. -/
theorem c139_unique (h : Proper (tabled c L) v m g s meshes (driven ws I)) (hk : SameK m m) (hL : ∀ e ∈ c.blocks, ∀ T T', L e.1 T = L e.1 T') {r : Nat → ℚ}
    (hr : ∀ k T, 0 ≤ r k ∧ m.resist k T = r k) {minR : ℚ} (hm : 0 < minR) {refT : ℚ} {x y : Nat → ℚ} (hx : Steady minR refT m x) (hy : Steady minR refT m y) :
    ∀ i < m.total, x i = y i := by
  intro i hi
  have hs : Shape m m := ⟨rfl, rfl, rfl, rfl, rfl⟩
  have hbc : SameBC m m := ⟨rfl, rfl⟩
  exact le_antisymm
    (c139_power h h hs hk hbc (fun e he T T' => (hL e he T T').le) (fun _ => le_refl _) (fun k T => ⟨(hr k T).1, (hr k T).2, (hr k T).2⟩) hm hx hy i hi)
    (c139_power h h hs hk hbc (fun e he T T' => (hL e he T T').le) (fun _ => le_refl _) (fun k T => ⟨(hr k T).1, (hr k T).2, (hr k T).2⟩) hm hy hx i hi)

/-- C139, superposition: if the powers of the blocks are combinations of the powers in two other cases, and so are the squares of the currents, then the rises of
the temperatures over the surroundings are the same combinations of the rises in those cases. -/
theorem c139_superposition {ma mb : SModel ℚ} {Pa Pb P : Nat → ℚ} {Ia Ib : Nat → ℚ} (ha : Proper (tabled c fun k _ => Pa k) v ma g s meshes (driven ws Ia))
    (hb : Proper (tabled c fun k _ => Pb k) v mb g s meshes (driven ws Ib)) (h : Proper (tabled c fun k _ => P k) v m g s meshes (driven ws I)) (hsa : Shape m ma)
    (hsb : Shape m mb) (hka : SameK m ma) (hkb : SameK m mb) (hca : SameBC m ma) (hcb : SameBC m mb) {r : Nat → ℚ}
    (hr : ∀ k T, 0 ≤ r k ∧ ma.resist k T = r k ∧ mb.resist k T = r k ∧ m.resist k T = r k) {p q : ℚ} (hP : ∀ e ∈ c.blocks, P e.1 = p * Pa e.1 + q * Pb e.1)
    (hI : ∀ j, I j ^ 2 = p * Ia j ^ 2 + q * Ib j ^ 2) {minR : ℚ} (hm : 0 < minR) {refT : ℚ} {x y z : Nat → ℚ} (hx : Steady minR refT ma x)
    (hy : Steady minR refT mb y) (hz : Steady minR refT m z) : ∀ i < m.total, z i - refT = p * (x i - refT) + q * (y i - refT) := by
  obtain ⟨Ta, na, ba, sa⟩ := hx
  obtain ⟨Tb, nb, bb, sb⟩ := hy
  obtain ⟨T, n, bn, sn⟩ := hz
  obtain ⟨a1, a2⟩ := num_pair h ha
  obtain ⟨b1, b2⟩ := num_pair h hb
  have hl := net_length h bn
  rw [← hl]
  refine c126_superposition (ground h hm bn) (same_net h ha hsa hka hca hm bn ba) (same_net h hb hsb hkb hcb hm bn bb) p q (fun i hi => ?_) sa sb sn
  rw [hl] at hi
  rcases elem_cases h hi with ⟨l, t, hc, rfl⟩ | ⟨k, w, hw, rfl⟩
  · have e1 := prism_heat h bn hc
    have e2 := prism_heat ha ba hc
    have e3 := prism_heat hb bb hc
    rw [← a2] at e2
    rw [← b2] at e3
    rw [e1, e2, e3, ← List.sum_map_mul_left, ← List.sum_map_mul_left, ← List.sum_map_add]
    congr 1
    apply List.map_congr_left
    intro e he
    rw [hP e he]
    ring
  · have e1 := line_heat h bn (fun k T => ⟨(hr k T).1, (hr k T).2.2.2⟩) hw
    have e2 := line_heat ha ba (fun k T => ⟨(hr k T).1, (hr k T).2.1⟩) hw
    have e3 := line_heat hb bb (fun k T => ⟨(hr k T).1, (hr k T).2.2.1⟩) hw
    rw [← a1] at e2
    rw [← b1] at e3
    rw [e1, e2, e3, hI]
    ring

/-- of the blocks only one has power -/
theorem single_power (h : Proper (tabled c L) v m g s meshes (driven ws I)) {e : Nat × Block} (he : e ∈ c.blocks) (f : Nat × Block → ℚ) :
    (c.blocks.map fun d => (if d.1 = e.1 then 1 else 0) * f d).sum = f e := by
  have wf : UMap.WF c.blocks := by
    have := h.blocks
    unfold UMap.WF UMap.keys tabled at this
    rw [List.map_map] at this
    exact this
  have key : ∀ l : List (Nat × Block), UMap.WF l → e ∈ l → (l.map fun d => (if d.1 = e.1 then 1 else 0) * f d).sum = f e := by
    intro l wl hl
    induction l with
    | nil => cases hl
    | cons d l ih =>
      have wd : d.1 ∉ UMap.keys l ∧ (UMap.keys l).Nodup := List.nodup_cons.1 (show (d.1 :: UMap.keys l).Nodup from wl)
      rw [List.map_cons, List.sum_cons]
      rw [List.mem_cons] at hl
      rcases hl with rfl | hl
      · rw [if_pos rfl, one_mul]
        have : (l.map fun d => (if d.1 = e.1 then 1 else 0) * f d).sum = 0 := by
          apply List.sum_eq_zero
          intro x hx
          rw [List.mem_map] at hx
          obtain ⟨d, hd, rfl⟩ := hx
          rw [if_neg, zero_mul]
          intro hde
          exact wd.1 (hde ▸ List.mem_map_of_mem (f := Prod.fst) hd)
        rw [this, add_zero]
      · rw [if_neg, zero_mul, zero_add]
        · exact ih wd.2 hl
        · intro hde
          exact wd.1 (hde ▸ List.mem_map_of_mem (f := Prod.fst) hl)
  exact key c.blocks wf he

/-- C139, reciprocity: the powers in one case times the rises in another are the powers in the other times the rises in the first.  So a block heats
another as much on average as the other heats it. -/
theorem c139_reciprocity {P P' : Nat → ℚ} (h : Proper (tabled c fun k _ => P k) v m g s meshes (driven ws I))
    (h' : Proper (tabled c fun k _ => P' k) v m' g s meshes (driven ws I')) (hs : Shape m m') (hk : SameK m m') (hbc : SameBC m m') {r : Nat → ℚ}
    (hr : ∀ k T, 0 ≤ r k ∧ m.resist k T = r k ∧ m'.resist k T = r k) {minR : ℚ} (hm : 0 < minR) {refT : ℚ} {x y : Nat → ℚ} (hx : Steady minR refT m x)
    (hy : Steady minR refT m' y) :
    (weighted c v meshes m.prisms ws r P I fun i => y i - refT) = (weighted c v meshes m.prisms ws r P' I' fun i => x i - refT) ∧
    ∀ e ∈ c.blocks, ∀ e' ∈ c.blocks, (∀ k, P k = if k = e.1 then 1 else 0) → (∀ k, P' k = if k = e'.1 then 1 else 0) → (∀ j, I j = 0) → (∀ j, I' j = 0) →
      (mean c v meshes m.prisms e fun i => y i - refT) = mean c v meshes m.prisms e' fun i => x i - refT := by
  obtain ⟨T, a, ha, sx⟩ := hx
  obtain ⟨T', b, hb, sy⟩ := hy
  have hsame := same_net h h' hs hk hbc hm ha hb
  have key := (c126_reciprocity (ground h hm ha) hsame sx sy).1
  rw [net_weighted h (P := P) (fun _ _ _ => rfl) ha (fun k T => ⟨(hr k T).1, (hr k T).2.1⟩), hsame.length,
    net_weighted h' (P := P') (fun _ _ _ => rfl) hb (fun k T => ⟨(hr k T).1, (hr k T).2.2⟩), ← weighted_same h h'] at key
  refine ⟨key, fun e he e' he' hP hP' hI hI' => ?_⟩
  unfold weighted at key
  have z1 : ∀ (J : Nat → ℚ) (hJ : ∀ j, J j = 0) (z : Nat → ℚ),
      ((segments ws).zipIdx.map fun w => J w.1.1 ^ 2 * (r w.1.2.1 * w.1.2.2.1 / w.1.2.2.2) * z (m.prisms.length + w.2)).sum = 0 := by
    intro J hJ z
    apply List.sum_eq_zero
    intro w hw
    rw [List.mem_map] at hw
    obtain ⟨g, -, rfl⟩ := hw
    rw [hJ]
    ring
  rw [z1 I hI (fun i => y i - refT), z1 I' hI' (fun i => x i - refT), add_zero, add_zero] at key
  simp only [hP, hP'] at key
  rw [single_power h he (fun d => mean c v meshes m.prisms d fun i => y i - refT), single_power h he' (fun d => mean c v meshes m.prisms d fun i => x i - refT)] at key
  exact key

/-- C139, the hottest element lies in a power block or a bond wire: a temperature not below that of the surroundings which no prism of a block and
no segment exceeds is exceeded nowhere. -/
theorem c139_hottest (h : Proper (tabled c L) v m g s meshes (driven ws I)) {minR : ℚ} (hm : 0 < minR) {refT top : ℚ} (ht : refT ≤ top) {x : Nat → ℚ}
    (hx : Steady minR refT m x)
    (hb : ∀ e ∈ c.blocks, ∀ l t, part c v l t e ≠ 0 → (cellS meshes (infoOf c v) l t).isSome = true → x (num m.prisms l t) ≤ top)
    (hl : ∀ n < (segments ws).length, x (m.prisms.length + n) ≤ top) : ∀ i < m.total, x i ≤ top := by
  obtain ⟨T, a, ha, sx⟩ := hx
  have hlen := net_length h ha
  rw [← hlen]
  refine c126_hottest (ground h hm ha) sx ht fun i hi hpos => ?_
  rw [hlen] at hi
  rcases elem_cases h hi with ⟨l, t, hc, rfl⟩ | ⟨n, w, hw, rfl⟩
  · rw [prism_heat h ha hc] at hpos
    obtain ⟨e, he, hne⟩ : ∃ e ∈ c.blocks, part c v l t e ≠ 0 := by
      by_contra hcon
      push Not at hcon
      apply hpos.ne'
      apply List.sum_eq_zero
      intro w hw
      rw [List.mem_map] at hw
      obtain ⟨e, he, rfl⟩ := hw
      rw [hcon e he, zero_mul]
    exact hb e he l t hne hc
  · exact hl n (List.getElem?_eq_some_iff.1 hw).1

theorem same_heat {P : Nat → ℚ} (h : Proper (tabled c fun k _ => P k) v m g s meshes (driven ws I))
    (h' : Proper (tabled c fun k _ => P k) v m' g s meshes (driven ws I)) {r : Nat → ℚ}
    (hr : ∀ k T, 0 ≤ r k ∧ m.resist k T = r k ∧ m'.resist k T = r k) {minR : ℚ} {T T' : List ℚ} {a b : Network ℚ} (ha : m.build minR T = .ok (some a))
    (hb : m'.build minR T' = .ok (some b)) (hl : a.length = b.length) (i : Nat) : hfOf a i = hfOf b i := by
  have hlen := net_length h ha
  obtain ⟨hn, hnum⟩ := num_pair h h'
  by_cases hi : i < a.length
  · rw [hlen] at hi
    rcases elem_cases h hi with ⟨l, t, hc, rfl⟩ | ⟨n, w, hw, rfl⟩
    · rw [prism_heat h ha hc, hnum, prism_heat h' hb hc]
    · rw [line_heat h ha (fun k T => ⟨(hr k T).1, (hr k T).2.1⟩) hw, hn, line_heat h' hb (fun k T => ⟨(hr k T).1, (hr k T).2.2⟩) hw]
  · rw [(beyond a (by omega)).2, (beyond b (by omega)).2]

/-- C139, cooling: with the same powers, none of which cools, and transfer coefficients that are not smaller no element is hotter. -/
theorem c139_cooling {P : Nat → ℚ} (h : Proper (tabled c fun k _ => P k) v m g s meshes (driven ws I))
    (h' : Proper (tabled c fun k _ => P k) v m' g s meshes (driven ws I)) (hs : Shape m m') (hk : SameK m m') (hbc : MoreBC m m')
    (hP : ∀ e ∈ c.blocks, 0 ≤ P e.1) {r : Nat → ℚ} (hr : ∀ k T, 0 ≤ r k ∧ m.resist k T = r k ∧ m'.resist k T = r k) {minR : ℚ} (hm : 0 < minR) {refT : ℚ}
    {x y : Nat → ℚ} (hx : Steady minR refT m x) (hy : Steady minR refT m' y) : ∀ i < m.total, y i ≤ x i := by
  obtain ⟨T, a, ha, sx⟩ := hx
  obtain ⟨T', b, hb, sy⟩ := hy
  have hlen := net_length h ha
  obtain ⟨n1, n2⟩ := same_ns h h' hs hk hm ha hb
  rw [← hlen]
  refine c126_cooling (ground h hm ha) ⟨n1, n2, htc_le h h' hbc ha hb, same_heat h h' hr ha hb n1⟩ (fun n hn => ?_) sx sy
  obtain ⟨k, hkn⟩ := List.getElem?_of_mem hn
  have hkl := (List.getElem?_eq_some_iff.1 hkn).1
  have hnk : hfOf a k = n.hf := by unfold hfOf; rw [hkn]
  rw [← hnk]
  by_cases hkp : k < m.prisms.length
  · refine stack_prism_nonneg h ha (fun e he T => ?_) hkp
    unfold tabled at he
    rw [List.mem_map] at he
    obtain ⟨d, hd, rfl⟩ := he
    exact hP d hd
  · have htot := total_eq h
    have hcnt := lines_count h
    have hpl := (fromMeshes_facts h.made).1
    have := (stack_lines_hf h ha (rlo := r) (rhi := r) (fun k T => ⟨(hr k T).1, (hr k T).2.1.ge, (hr k T).2.1.le⟩) (n := k - totalPrisms m.off) (by omega)).1
    rwa [show totalPrisms m.off + (k - totalPrisms m.off) = k by omega] at this

/-- C139, materials: with the same powers, conductivities that are not smaller and transfer coefficients that are not smaller the rises weighted with the powers
are not larger. -/
theorem c139_materials {P : Nat → ℚ} (h : Proper (tabled c fun k _ => P k) v m g s meshes (driven ws I))
    (h' : Proper (tabled c fun k _ => P k) v m' g s meshes (driven ws I)) (hs : Shape m m') (hz : Sized m meshes) (hk : MoreK m m') (hbc : MoreBC m m')
    {r : Nat → ℚ} (hr : ∀ k T, 0 ≤ r k ∧ m.resist k T = r k ∧ m'.resist k T = r k) {minR : ℚ} (hm : 0 < minR) {refT : ℚ} {x y : Nat → ℚ}
    (hx : Steady minR refT m x) (hy : Steady minR refT m' y) :
    (weighted c v meshes m.prisms ws r P I fun i => y i - refT) ≤ weighted c v meshes m.prisms ws r P I fun i => x i - refT := by
  obtain ⟨T, a, ha, sx⟩ := hx
  obtain ⟨T', b, hb, sy⟩ := hy
  obtain ⟨n1, n2⟩ := at_ns (lower_of h h' (less_more h hs hz hk) hm ha hb)
  have := (c126_conduction (ground h hm ha) (ground h' hm hb) ⟨n1, n2, htc_le h h' hbc ha hb, same_heat h h' hr ha hb n1⟩ sx sy).1
  rw [net_weighted h (P := P) (fun _ _ _ => rfl) ha (fun k T => ⟨(hr k T).1, (hr k T).2.1⟩),
    net_weighted h (P := P) (fun _ _ _ => rfl) ha (fun k T => ⟨(hr k T).1, (hr k T).2.1⟩)] at this
  exact this

/-- C139, the static solver: what it returns are steady temperatures, after any positive number of rounds. -/
theorem c139_static (h : Proper c v m g s meshes ws) {minR : ℚ} (hm : 0 < minR) (envT limit : ℚ) (maximum celsius : Bool) (iteration : Nat)
    (hit : 1 ≤ iteration) (solve : Network ℚ → List ℚ) (hlen : ∀ net, (solve net).length = net.length)
    (hsol : ∀ net, Grounded net → Solves net envT fun i => (solve net)[i]?.getD 0) (fuel : Nat) (hf : iteration ≤ fuel) :
    ∃ r, Static.solveStatic (m.build minR) solve m.total envT limit maximum iteration celsius fuel = some (.ok (some r)) ∧ r.length = m.total ∧
      Steady minR envT m fun k => r[k]?.getD 0 + if celsius then (27315 / 100 : ℚ) else 0 := by
  have hbuild : ∀ T : List ℚ, T.length = m.total → ∃ net, m.build minR T = .ok (some net) ∧ net.length = m.total ∧ Grounded net := by
    intro T hT
    obtain ⟨net, hbd, hg, -⟩ := c78_solvable h.made h.geometry h.nbs h.cooled hm hT envT
    obtain ⟨net', hbd', hl⟩ := c78_builds h.made minR hT
    rw [hbd, Res.ok.injEq, Option.some.injEq] at hbd'
    subst hbd'
    exact ⟨net, hbd, hl, hg⟩
  obtain ⟨T, n, t1, t2, t3, t4, t5, -⟩ := Static.c67_static_partial (m.build minR) solve m.total envT limit maximum celsius iteration hit
    (fun T hT => by obtain ⟨net, n1, n2, _⟩ := hbuild T hT; exact ⟨net, n1, n2⟩) hlen fuel hf
  obtain ⟨net, r1, r2⟩ := t5 (n - 1) (by omega)
  rw [Nat.sub_add_cancel t2] at r2
  have hTlen : (T (n - 1)).length = m.total := (stack_run r1).1
  obtain ⟨net', n1, n2, hg⟩ := hbuild _ hTlen
  rw [r1, Res.ok.injEq, Option.some.injEq] at n1
  subst n1
  have hlT : (T n).length = m.total := by rw [r2, hlen, n2]
  refine ⟨_, t4, by split_ifs <;> simp [hlT], T (n - 1), net, r1, ?_⟩
  refine solves_on hg (fun k hk => ?_) (hsol net hg)
  rw [← r2]
  have hkT : k < (T n).length := by rw [r2, hlen]; exact hk
  cases celsius
  · simp
  · simp [List.getElem?_eq_getElem hkT]

end

/-! ## example -/

open Ecad.PrismResp (exTwo exBond)

/-- stackup models of two meshes over each other for all powers and currents, with conductivity `kk` and transfer coefficient `hh` -/
theorem exTwo_proper (L : Nat → ℚ → ℚ) (I : Nat → ℚ) (kk hh : ℚ) (hp : 0 < hh) :
    ∃ m : SModel ℚ, Proper (tabled exTwo L) exPowerView m exTri 1 [exPowerMesh, exPowerMesh] (driven [exBond] I) ∧ m.total = 6 ∧
      ∃ off ps ls, m = { exSModel off ps ls with k := fun _ _ _ => kk, topBC := some ⟨.htc, some hh⟩ } := by
  obtain ⟨off, ps, h, hn, hst⟩ := stack_built exTri [exPowerMesh, exPowerMesh] (infoOf (tabled exTwo L) exPowerView) 4
  obtain ⟨off', ps', h', hn', hst'⟩ := stack_built exTri [exPowerMesh, exPowerMesh] (infoOf exTwo exPowerView) 4
  have hoff : ((stackLayers [exPowerMesh, exPowerMesh] (infoOf exTwo exPowerView)).bind fun ls => buildStack exTri ls 4).bind
      (fun r => .ok r.1) = .ok [0, 2, 4] := by decide +kernel
  rw [h', Res.bind_ok, Res.ok.injEq] at hoff
  have ht : totalPrisms off = 4 := by
    have e1 : totalPrisms off' = 4 := by rw [show off' = [0, 2, 4] from hoff]; rfl
    have e2 := congrArg List.length (keys_same (tabled_info exTwo exPowerView L) hst' hst)
    rw [List.length_map, List.length_map] at e2
    omega
  have w1 : Whole exTwo exPowerView 2 0 0 ⟨⟨10, 5⟩, 7, fun _ => 3⟩ := by
    refine ⟨by decide, by decide, ⟨[0], rfl, by simp, ?_⟩, by decide, by decide +kernel⟩
    intro t _ _ i hi hne
    simp at hi
    exact absurd hi hne
  have w2 : Whole exTwo exPowerView 2 1 1 ⟨⟨5, 0⟩, 8, fun _ => 1⟩ := by
    refine ⟨by decide, by decide, ⟨[0, 1], rfl, by simp, ?_⟩, by decide, by decide +kernel⟩
    intro t _ _ i hi hne _
    simp at hi
    rcases hi with rfl | rfl
    · decide +kernel
    · exact absurd rfl hne
  obtain ⟨ls, hls⟩ : ∃ ls, addWires off [] (driven [exBond] I) = .ok ls := ⟨_, rfl⟩
  have hll : ls.length = 2 := by
    have := congrArg List.length (data_wires _ _ _ _ hls)
    rw [List.length_map] at this
    rw [this]
    rfl
  refine ⟨{ exSModel off ps ls with k := fun _ _ _ => kk, topBC := some ⟨.htc, some hh⟩ }, ⟨?_, ?_, ⟨⟨4, h⟩, hls, ?_⟩, ?_, ?_, ?_, ?_, ?_, ?_, ?_⟩, ?_,
    off, ps, ls, rfl⟩
  · simp [exTwo, tabled, UMap.WF, UMap.keys]
  · exact exPower_hits
  · intro w hw
    simp only [driven, List.zipIdx, List.map_cons, List.map_nil, List.mem_singleton] at hw
    subst hw
    show _ ∧ (∀ x ∈ [0], x < totalPrisms off) ∧ ∀ x ∈ [3], x < totalPrisms off
    rw [ht]
    exact ⟨by simp [exBond, PrismBal.exWire], by simp, by simp⟩
  · refine ⟨fun _ _ => by norm_num [exTri], fun _ _ _ _ _ => rfl, ?_, ?_, by norm_num, fun _ _ => by norm_num [exTri, exSModel]⟩
    · intro l t l' t'
      simp only [exTri, eq_comm]
    · intro l t l' t'
      simp only [exTri]
      split_ifs <;> norm_num
  · intro mesh hmesh
    have : mesh = exPowerMesh := by simpa using hmesh
    subst this
    intro t n t' hn
    match t, n with
    | 0, 0 => exact ⟨0, by simp [nbOf, exPowerMesh] at hn; subst hn; rfl⟩
    | 1, 0 => exact ⟨0, by simp [nbOf, exPowerMesh] at hn; subst hn; rfl⟩
    | 0, 1 => simp [nbOf, exPowerMesh] at hn
    | 0, 2 => simp [nbOf, exPowerMesh] at hn
    | 1, 1 => simp [nbOf, exPowerMesh] at hn
    | 1, 2 => simp [nbOf, exPowerMesh] at hn
    | t + 2, n => simp [nbOf, exPowerMesh] at hn
  · intro e he
    simp only [tabled, exTwo, List.map_cons, List.map_nil, List.mem_cons, List.not_mem_nil, or_false] at he
    rcases he with rfl | rfl
    · exact ⟨0, by decide, w1.solid, w1.top, w1.listed, w1.area, w1.tiled⟩
    · exact ⟨1, by decide, w2.solid, w2.top, w2.listed, w2.area, w2.tiled⟩
  · intro l t
    simp [exPowerView]
  · refine ⟨?_, .inl ⟨hh, rfl⟩⟩
    rintro bc (hbc | hbc) _ x hx
    · simp only [Option.some.injEq] at hbc
      subst hbc
      simp at hx
      rw [← hx]
      exact hp
    · simp [exSModel] at hbc
  · rintro bc (hbc | hbc)
    · simp only [Option.some.injEq] at hbc
      subst hbc
      simp
    · simp [exSModel] at hbc
  · intro w hw
    simp only [driven, List.zipIdx, List.map_cons, List.map_nil, List.mem_singleton] at hw
    subst hw
    refine ⟨by norm_num [exBond, PrismBal.exWire], fun s => ?_⟩
    show 0 ≤ (if s = 0 then (1 : ℚ) else 4)
    split_ifs <;> norm_num
  · show ls.length + totalPrisms off = 6
    rw [hll, ht]

/-- the hypotheses of the claims: four prisms and two segments; powers 1 and 0 against 0 and 1, a current of 1 A against 2 A, conductivity 1 against 3 and transfer
coefficient 4 against 5 -/
example : ∃ m m' n : SModel ℚ, m.total = 6 ∧
    Proper (tabled exTwo fun k _ => if k = 0 then 1 else 0) exPowerView m exTri 1 [exPowerMesh, exPowerMesh] (driven [exBond] fun _ => 1) ∧
    Proper (tabled exTwo fun k _ => if k = 1 then 1 else 0) exPowerView m' exTri 1 [exPowerMesh, exPowerMesh] (driven [exBond] fun _ => 2) ∧
    Proper (tabled exTwo fun k _ => if k = 0 then 1 else 0) exPowerView n exTri 1 [exPowerMesh, exPowerMesh] (driven [exBond] fun _ => 1) ∧
    Shape m m' ∧ SameK m m' ∧ SameBC m m' ∧ (∀ k T, (0 : ℚ) ≤ 1 ∧ m.resist k T = 1 ∧ m'.resist k T = 1) ∧
    Shape m n ∧ Sized m [exPowerMesh, exPowerMesh] ∧ MoreK m n ∧ MoreBC m n := by
  obtain ⟨m, h1, t1, o1, p1, l1, rfl⟩ := exTwo_proper (fun k _ => if k = 0 then 1 else 0) (fun _ => 1) 1 4 (by norm_num)
  obtain ⟨m', h2, -, o2, p2, l2, rfl⟩ := exTwo_proper (fun k _ => if k = 1 then 1 else 0) (fun _ => 2) 1 4 (by norm_num)
  obtain ⟨n, h3, -, o3, p3, l3, rfl⟩ := exTwo_proper (fun k _ => if k = 0 then 1 else 0) (fun _ => 1) 3 5 (by norm_num)
  refine ⟨_, _, _, t1, h1, h2, h3, ⟨rfl, rfl, rfl, rfl, rfl⟩, fun _ _ _ => rfl, ⟨rfl, rfl⟩, fun _ _ => ⟨by norm_num, rfl, rfl⟩, ⟨rfl, rfl, rfl, rfl, rfl⟩,
    ⟨fun _ => by simp [exSModel], fun _ _ _ => by simp [exSModel], fun _ _ _ => by simp [exSModel], fun _ _ _ _ _ => by simp [exSModel]⟩,
    fun _ _ _ _ => by norm_num, ⟨.some ⟨rfl, .some (by norm_num)⟩, .none⟩⟩

end Ecad.StackResp
