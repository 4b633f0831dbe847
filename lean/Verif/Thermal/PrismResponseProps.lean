import Verif.Thermal.LowerProps
import Verif.Thermal.PrismBalanceProps
/-!
C138: How the steady temperatures of a prism model respond to the powers of its blocks, the currents of its bond wires, its cooling and its materials:
from the layer cut model over the extraction of prisms and lines and the network to the temperatures.
-/
namespace Ecad.PrismResp
open Ecad.Thermal Ecad.Response Ecad.GridT Ecad.PrismT Ecad.PrismBal Ecad.Converge Ecad.Lower Finset

/-! ## specification -/

/-- the layer cut model with loss power `L` by polygon and temperature -/
def tabled (c : CutM) (L : Nat → ℚ → ℚ) : CutM := { c with blocks := c.blocks.map fun e => (e.1, { e.2 with lut := L e.1 }) }

/-- the bond wires with currents `I` -/
def driven (ws : List (Wire ℚ)) (I : Nat → ℚ) : List (Wire ℚ) := ws.zipIdx.map fun p => { p.1 with current := I p.2 }

/-- prisms of the same form -/
structure Shape (m m' : PModel ℚ) : Prop where
  area : m.area = m'.area
  edgeLen : m.edgeLen = m'.edgeLen
  toSide : m.toSide = m'.toSide
  dist : m.dist = m'.dist
  height : m.height = m'.height

/-- the same boundary conditions -/
structure SameBC (m m' : PModel ℚ) : Prop where
  top : m.topBC = m'.topBC
  bot : m.botBC = m'.botBC
  tops : m.topBlocks = m'.topBlocks
  bots : m.botBlocks = m'.botBlocks

/-- `x` are steady temperatures of a model: they solve the network built of it for some temperatures before -/
def Steady (minR refT : ℚ) (m : PModel ℚ) (x : Nat → ℚ) : Prop := ∃ T net, m.build minR T = .ok (some net) ∧ Solves net refT x

/-- the part of the area of the polygon of a block that is in a triangle of a layer -/
def part (c : CutM) (v : View) (l t : Nat) (e : Nat × Block) : ℚ :=
  if c.cut.layerByHeight e.2.range.high = some l ∧ v.contains l t e.1 = true then v.area l t / c.area e.1 else 0

/-- the mean of `z` over the elements of a block -/
def mean (c : CutM) (v : View) (tris layers : Nat) (e : Nat × Block) (z : Nat → ℚ) : ℚ :=
  ∑ l ∈ range layers, ∑ t ∈ range tris, part c v l t e * z (gid tris layers (infoOf c v) l t)

/-- the segments of all wires in order: number of the wire, material, length and cross section -/
def segments (ws : List (Wire ℚ)) : List (Nat × Nat × ℚ × ℚ) :=
  ws.zipIdx.flatMap fun p => (List.range (p.1.points - 1)).map fun s => (p.2, p.1.mat, p.1.length s, p.1.area)

/-- the number of prisms -/
def prismCount (c : CutM) (v : View) (tris layers : Nat) : Nat := before tris layers (infoOf c v) layers

/-- powers of blocks and wires times `z` there: `P` of each block times the mean of `z` over it, and the square of the current times resistance
of each segment of a wire times `z` there -/
def weighted (c : CutM) (v : View) (tris layers : Nat) (ws : List (Wire ℚ)) (r : Nat → ℚ) (P I : Nat → ℚ) (z : Nat → ℚ) : ℚ :=
  (c.blocks.map fun e => P e.1 * mean c v tris layers e z).sum +
    ((segments ws).zipIdx.map fun g => I g.1.1 ^ 2 * (r g.1.2.1 * g.1.2.2.1 / g.1.2.2.2) * z (prismCount c v tris layers + g.2)).sum

/-! ## prisms of models that differ in powers -/

/-- the same materials at the same places -/
def SameInfo (info info' : Nat → Nat → Option (Cell ℚ)) : Prop := ∀ l t, (info l t).map Cell.mat = (info' l t).map Cell.mat

theorem tabled_info (c : CutM) (v : View) (L : Nat → ℚ → ℚ) : SameInfo (infoOf c v) (infoOf (tabled c L) v) := by
  intro l t
  unfold infoOf
  show Option.map Cell.mat (match search c v l t with | none => none | some pid => _) =
    Option.map Cell.mat (match search c v l t with | none => none | some pid => _)
  cases search c v l t with
  | none => rfl
  | some pid =>
    show Option.map Cell.mat (if c.fluid (c.mat pid) then none else if c.noMat = c.mat pid then none else _) =
      Option.map Cell.mat (if c.fluid (c.mat pid) then none else if c.noMat = c.mat pid then none else _)
    split_ifs <;> rfl

section
variable {tris layers : Nat} {info info' : Nat → Nat → Option (Cell ℚ)}

theorem cell_same (h : SameInfo info info') (l t : Nat) : (cellAt tris layers info l t).map Cell.mat = (cellAt tris layers info' l t).map Cell.mat := by
  unfold cellAt
  split_ifs
  · exact h l t
  · rfl

theorem some_same (h : SameInfo info info') (l t : Nat) : (cellAt tris layers info l t).isSome = (cellAt tris layers info' l t).isSome := by
  have := congrArg Option.isSome (cell_same (tris := tris) (layers := layers) h l t)
  simpa using this

theorem rank_same {α β : Type} {f : Nat → Option α} {g : Nat → Option β} (h : ∀ t, (f t).isSome = (g t).isSome) (t : Nat) : rank f t = rank g t := by
  induction t with
  | zero => rfl
  | succ t ih => rw [rank_succ, rank_succ, ih, h t]

theorem map_same {α β γ : Type} {a : Option α} {b : Option β} (h : a.isSome = b.isSome) (x : γ) : (a.map fun _ => x) = b.map fun _ => x := by
  cases a <;> cases b <;> simp at h <;> rfl

theorem before_same (h : SameInfo info info') (l : Nat) : before tris layers info l = before tris layers info' l := by
  unfold before
  congr 1
  apply List.map_congr_left
  intro l' _
  exact rank_same (some_same h l') tris

theorem gid_same (h : SameInfo info info') (l t : Nat) : gid tris layers info l t = gid tris layers info' l t := by
  unfold gid
  rw [before_same h, rank_same (some_same h l) t]

theorem slot_same (h : SameInfo info info') (l t : Nat) : slot tris layers info l t = slot tris layers info' l t := by
  unfold slot
  rw [rank_same (some_same h l) t, map_same (some_same h l t)]

theorem gslot_same (h : SameInfo info info') (l t : Nat) : gslot tris layers info l t = gslot tris layers info' l t := by
  unfold gslot
  rw [gid_same h l t, map_same (some_same h l t)]

/-- prisms that differ in power only -/
structure Alike (p p' : Prism ℚ) : Prop where
  layer : p.layer = p'.layer
  tri : p.elem.tri = p'.elem.tri
  mat : p.elem.cell.mat = p'.elem.cell.mat
  etop : p.elem.top = p'.elem.top
  ebot : p.elem.bot = p'.elem.bot
  edge : p.edge = p'.edge
  top : p.top = p'.top
  bot : p.bot = p'.bot

theorem prism_alike (mesh : Mesh) (h : SameInfo info info') (l t : Nat) {y y' : Cell ℚ} (hy : y.mat = y'.mat) :
    Alike (prismAt mesh layers info l t y) (prismAt mesh layers info' l t y') := by
  refine ⟨rfl, rfl, hy, ?_, slot_same h _ _, ?_, ?_, gslot_same h _ _⟩
  · cases l with
    | zero => rfl
    | succ l => exact slot_same h _ _
  · funext n
    show (nbOf mesh t n).bind _ = (nbOf mesh t n).bind _
    cases nbOf mesh t n with
    | none => rfl
    | some s => exact gslot_same h _ _
  · cases l with
    | zero => rfl
    | succ l => exact gslot_same h _ _
end

/-! ## lines of models that differ in currents -/

/-- a line without current -/
def still (l : Line ℚ) : Line ℚ := { l with current := 0 }

/-- a wire without current -/
def rest (w : Wire ℚ) : Wire ℚ := { w with current := 0 }

theorem seg_still {off off' : List Nat} (ho : totalPrisms off = totalPrisms off') (w : Wire ℚ) (ls : List (Line ℚ)) (s : Nat) :
    (addSeg off w ls s).map still = addSeg off' (rest w) (ls.map still) s := by
  unfold addSeg
  dsimp only
  rw [List.map_append, List.length_map, List.map_singleton]
  have hid : lineId off ls.length = lineId off' ls.length := by unfold lineId; rw [ho]
  have hlast : ((ls.map still).getLast?.map Line.id) = ls.getLast?.map Line.id := by
    rw [List.getLast?_map, Option.map_map]
    rfl
  congr 1
  · split_ifs
    · rfl
    · apply List.ext_getElem?
      intro i
      rw [List.getElem?_map, List.getElem?_modify, List.getElem?_modify, List.getElem?_map, hid]
      cases ls[i]? with
      | none => rfl
      | some l => by_cases h : ls.length - 1 = i <;> simp [h, still]
  · rw [hlast, hid]
    rfl

theorem fold_still {off off' : List Nat} (ho : totalPrisms off = totalPrisms off') (w : Wire ℚ) (ss : List Nat) : ∀ ls : List (Line ℚ),
    (ss.foldl (addSeg off w) ls).map still = ss.foldl (addSeg off' (rest w)) (ls.map still) := by
  induction ss with
  | nil => intro ls; rfl
  | cons s ss ih => intro ls; rw [List.foldl_cons, List.foldl_cons, ih, seg_still ho]

theorem wires_still {off off' : List Nat} (ho : totalPrisms off = totalPrisms off') (ws : List (Wire ℚ)) : ∀ (ls ls' : List (Line ℚ)),
    addWires off ls ws = .ok ls' → addWires off' (ls.map still) (ws.map rest) = .ok (ls'.map still) := by
  induction ws with
  | nil =>
    intro ls ls' h
    rw [addWires, Res.ok.injEq] at h
    rw [← h]
    rfl
  | cons w ws ih =>
    intro ls ls' h
    rw [List.map_cons, addWires]
    rw [addWires] at h
    unfold addWire at h ⊢
    split_ifs at h with hp
    · simp at h
    · rw [Res.bind_ok] at h
      rw [if_neg (show (rest w).points ≠ 0 from hp), Res.bind_ok]
      have := ih _ _ h
      rw [fold_still ho] at this
      exact this

theorem driven_rest (ws : List (Wire ℚ)) (I I' : Nat → ℚ) : (driven ws I).map rest = (driven ws I').map rest := by
  unfold driven
  rw [List.map_map, List.map_map]
  rfl

/-! ## resistances -/

section
variable {c c' : CutM} {v v' : View} {m m' : PModel ℚ} {mesh : Mesh} {layers : Nat} {ws ws' : List (Wire ℚ)}

/-- two models of the same mesh with the same materials at the same places and wires that differ in currents only -/
structure Pair (m m' : PModel ℚ) : Prop where
  base : totalPrisms m.off = totalPrisms m'.off
  prisms : List.Forall₂ Alike m.prisms m'.prisms
  lines : m.lines.map still = m'.lines.map still

theorem pair_of {info info' : Nat → Nat → Option (Cell ℚ)} (hi : SameInfo info info') (hx : Extracted m mesh layers info ws) (hx' : Extracted m' mesh layers info' ws')
    (hw : ws.map rest = ws'.map rest) : Pair m m' := by
  obtain ⟨e1, e2, -, e4⟩ := extracted_prisms hx
  obtain ⟨f1, f2, f3, -⟩ := extracted_prisms hx'
  have hb : totalPrisms m.off = totalPrisms m'.off := by rw [e1, f1, before_same hi]
  refine ⟨hb, ?_, ?_⟩
  · rw [List.forall₂_iff_get]
    refine ⟨by omega, fun i h1 h2 => ?_⟩
    obtain ⟨l, t, y, hy, hg, hp⟩ := e4 i _ (List.getElem?_eq_getElem h1)
    have hm := cell_same (tris := mesh.length) (layers := layers) hi l t
    rw [hy] at hm
    cases hy' : cellAt mesh.length layers info' l t with
    | none => rw [hy'] at hm; simp at hm
    | some y' =>
      rw [hy'] at hm
      have hq := f3 l t y' hy'
      rw [← gid_same hi, ← hg, List.getElem?_eq_getElem h2, Option.some.injEq] at hq
      rw [List.get_eq_getElem, List.get_eq_getElem, hp, hq]
      exact prism_alike mesh hi l t (by simpa using hm)
  · have h1 := wires_still hb ws [] _ hx.lines
    have h2 := wires_still rfl ws' [] _ hx'.lines
    rw [hw, h2, Res.ok.injEq] at h1
    exact h1.symm

theorem pair_symm (h : Pair m m') : Pair m' m := by
  refine ⟨h.base.symm, ?_, h.lines.symm⟩
  refine List.Forall₂.imp ?_ h.prisms.flip
  rintro p p' ⟨a1, a2, a3, a4, a5, a6, a7, a8⟩
  exact ⟨a1.symm, a2.symm, a3.symm, a4.symm, a5.symm, a6.symm, a7.symm, a8.symm⟩

/-- the resistances of the second model are not larger -/
structure LessR (m m' : PModel ℚ) : Prop where
  side : ∀ (i n : Nat) (p q : Prism ℚ) (e : Fin 3) (t u t' u' : ℚ), m.prisms[i]? = some p → p.edge e = some n → m.prisms[n]? = some q →
    m'.sideR p q e t' u' ≤ m.sideR p q e t u
  vert : ∀ (p q : Prism ℚ) (t u t' u' : ℚ), m'.vertR p q t' u' ≤ m.vertR p q t u
  half : ∀ l ∈ m.lines, ∀ t t' : ℚ, 1 / 2 * l.length / m'.aveK l.mat t' / l.area ≤ 1 / 2 * l.length / m.aveK l.mat t / l.area

theorem side_alike (m : PModel ℚ) {p p' q q' : Prism ℚ} (hp : Alike p p') (hq : Alike q q') (e : Fin 3) (t u : ℚ) : m.sideR p' q' e t u = m.sideR p q e t u := by
  unfold PModel.sideR
  rw [hp.layer, hp.tri, hp.mat, hq.tri, hq.mat]

theorem vert_alike (m : PModel ℚ) {p p' q q' : Prism ℚ} (hp : Alike p p') (hq : Alike q q') (t u : ℚ) : m.vertR p' q' t u = m.vertR p q t u := by
  unfold PModel.vertR
  rw [hp.layer, hp.tri, hp.mat, hq.layer, hq.mat]

theorem get_alike (h : Pair m m') (i : Nat) : (m.prisms[i]? = none ∧ m'.prisms[i]? = none) ∨
    ∃ p p', m.prisms[i]? = some p ∧ m'.prisms[i]? = some p' ∧ Alike p p' := by
  have := h.prisms
  rw [List.forall₂_iff_get] at this
  by_cases hi : i < m.prisms.length
  · have hi' : i < m'.prisms.length := by omega
    exact .inr ⟨_, _, List.getElem?_eq_getElem hi, List.getElem?_eq_getElem hi', this.2 i hi hi'⟩
  · exact .inl ⟨List.getElem?_eq_none (by omega), List.getElem?_eq_none (by omega)⟩

theorem link_le (h : Pair m m') {T T' : List ℚ} (hl : T.length = T'.length) (i : Nat) (n : Option Nat) {f f' : Prism ℚ → ℚ → ℚ}
    (hf : ∀ k q q' t t', n = some k → m.prisms[k]? = some q → m'.prisms[k]? = some q' → Alike q q' → f' q' t' ≤ f q t) :
    List.Forall₂ LeOp ((m.link T i n f).filter isR) ((m'.link T' i n f').filter isR) := by
  unfold PModel.link
  cases n with
  | none => exact List.Forall₂.nil
  | some n =>
    dsimp only
    split_ifs
    · rcases get_alike h n with ⟨h1, h2⟩ | ⟨q, q', h1, h2, h3⟩
      · rw [h1, h2]
        exact List.Forall₂.nil
      · rw [h1, h2]
        by_cases hn : n < T.length
        · rw [List.getElem?_eq_getElem hn, List.getElem?_eq_getElem (show n < T'.length by omega)]
          exact List.Forall₂.cons ⟨rfl, rfl, hf n q q' _ _ rfl h1 h2 h3⟩ List.Forall₂.nil
        · rw [List.getElem?_eq_none (show T.length ≤ n by omega), List.getElem?_eq_none (show T'.length ≤ n by omega)]
          exact List.Forall₂.nil
    · exact List.Forall₂.nil

theorem bc_noR (m : PModel ℚ) (bc : Option (BC ℚ)) (i : Nat) (p : Prism ℚ) (n : Option Nat) : (m.bcOps bc i p n).filter isR = [] := by
  unfold PModel.bcOps
  split <;> rfl

theorem power_noR (i : Nat) (p : Prism ℚ) (t : ℚ) : (powerOps i p t).filter isR = [] := by
  unfold powerOps
  split <;> rfl

theorem elem_le (h : Pair m m') (hr : LessR m m') {T T' : List ℚ} (hl : T.length = T'.length) (i : Nat) :
    List.Forall₂ LeOp ((m.elemOps T i).filter isR) ((m'.elemOps T' i).filter isR) := by
  unfold PModel.elemOps
  rcases get_alike h i with ⟨h1, h2⟩ | ⟨p, p', h1, h2, h3⟩
  · rw [h1, h2]
    exact List.Forall₂.nil
  · rw [h1, h2]
    by_cases hi : i < T.length
    · rw [List.getElem?_eq_getElem hi, List.getElem?_eq_getElem (show i < T'.length by omega)]
      simp only [List.filter_append, bc_noR, power_noR, List.nil_append, List.append_nil]
      rw [← h3.edge, ← h3.top, ← h3.bot]
      refine List.rel_append (List.rel_append (List.rel_append (List.rel_append (List.rel_append (List.Forall₂.nil) ?_) ?_) ?_) ?_) ?_
      · exact link_le h hl i _ fun k q q' t t' hk hq hq' ha => by rw [side_alike m' h3 ha]; exact hr.side i k p q 0 _ _ _ _ h1 hk hq
      · exact link_le h hl i _ fun k q q' t t' hk hq hq' ha => by rw [side_alike m' h3 ha]; exact hr.side i k p q 1 _ _ _ _ h1 hk hq
      · exact link_le h hl i _ fun k q q' t t' hk hq hq' ha => by rw [side_alike m' h3 ha]; exact hr.side i k p q 2 _ _ _ _ h1 hk hq
      · exact link_le h hl i _ fun k q q' t t' _ _ _ ha => by rw [vert_alike m' h3 ha]; exact hr.vert p q _ _ _ _
      · exact link_le h hl i _ fun k q q' t t' _ _ _ ha => by rw [vert_alike m' h3 ha]; exact hr.vert p q _ _ _ _
    · rw [List.getElem?_eq_none (show T.length ≤ i by omega), List.getElem?_eq_none (show T'.length ≤ i by omega)]
      exact List.Forall₂.nil

theorem line_still (h : Pair m m') (n : Nat) : (m.lines[n]? = none ∧ m'.lines[n]? = none) ∨
    ∃ l l', m.lines[n]? = some l ∧ m'.lines[n]? = some l' ∧ still l = still l' := by
  have := congrArg (fun l => l[n]?) h.lines
  simp only [List.getElem?_map] at this
  cases h1 : m.lines[n]? with
  | none =>
    rw [h1] at this
    cases h2 : m'.lines[n]? with
    | none => exact .inl ⟨rfl, rfl⟩
    | some l' => rw [h2] at this; simp at this
  | some l =>
    rw [h1] at this
    cases h2 : m'.lines[n]? with
    | none => rw [h2] at this; simp at this
    | some l' => rw [h2] at this; exact .inr ⟨l, l', rfl, rfl, by simpa using this⟩

/-- what lines that differ in current agree in -/
theorem still_eq {l l' : Line ℚ} (h : still l = still l') : l.id = l'.id ∧ l.mat = l'.mat ∧ l.length = l'.length ∧ l.area = l'.area ∧ l.front = l'.front ∧ l.back = l'.back := by
  unfold still at h
  injection h with h1 h2 h3 h4 h5 h6 h7 h8
  exact ⟨h1, h2, h4, h5, h7, h8⟩

theorem lineR_le (h : Pair m m') (hr : LessR m m') {l l' : Line ℚ} (hl : l ∈ m.lines) (hs : still l = still l') (t t' : ℚ) (nb : Nat) :
    List.Forall₂ LeOp ((m.lineR l t nb).filter isR) ((m'.lineR l' t' nb).filter isR) := by
  obtain ⟨s1, s2, s3, s4, s5, s6⟩ := still_eq hs
  have hh := hr.half l hl t t'
  unfold PModel.lineR
  have e1 : isPrima m.off nb = isPrima m'.off nb := by unfold isPrima; rw [h.base]
  have e2 : lineLocalIndex m.off nb = lineLocalIndex m'.off nb := by unfold lineLocalIndex; rw [h.base]
  rw [e1, e2, ← s1, ← s2, ← s3, ← s4]
  split_ifs
  · exact List.Forall₂.cons ⟨rfl, rfl, hh⟩ List.Forall₂.nil
  · rcases line_still h (lineLocalIndex m'.off nb) with ⟨h1, h2⟩ | ⟨q, q', h1, h2, h3⟩
    · rw [h1, h2]
      exact List.Forall₂.nil
    · rw [h1, h2]
      obtain ⟨-, t2, t3, t4, -, -⟩ := still_eq h3
      have hq := hr.half q (List.mem_of_getElem? h1) t t'
      refine List.Forall₂.cons ⟨rfl, rfl, ?_⟩ List.Forall₂.nil
      rw [← t2, ← t3, ← t4]
      exact add_le_add hh hq
  · exact List.Forall₂.nil

theorem flat_le {α β : Type} {f : α → List (Res (Op ℚ))} {g : β → List (Res (Op ℚ))} {R : α → β → Prop} {as : List α} {bs : List β} (h : List.Forall₂ R as bs)
    (hf : ∀ a ∈ as, ∀ b, R a b → List.Forall₂ LeOp ((f a).filter isR) ((g b).filter isR)) :
    List.Forall₂ LeOp ((as.flatMap f).filter isR) ((bs.flatMap g).filter isR) := by
  induction h with
  | nil => exact List.Forall₂.nil
  | cons h0 _ ih =>
    rw [List.flatMap_cons, List.flatMap_cons, List.filter_append, List.filter_append]
    exact List.rel_append (hf _ List.mem_cons_self _ h0) (ih fun a ha => hf a (List.mem_cons_of_mem _ ha))

theorem line_le (h : Pair m m') (hr : LessR m m') {T T' : List ℚ} (hlen : T.length = T'.length) {l l' : Line ℚ} (hl : l ∈ m.lines) (hs : still l = still l') :
    List.Forall₂ LeOp ((m.lineOps T l).filter isR) ((m'.lineOps T' l').filter isR) := by
  obtain ⟨s1, s2, s3, s4, s5, s6⟩ := still_eq hs
  unfold PModel.lineOps
  rw [← s1]
  by_cases hi : l.id < T.length
  · rw [List.getElem?_eq_getElem hi, List.getElem?_eq_getElem (show l.id < T'.length by omega)]
    dsimp only
    have hj : ∀ (j : ℚ), (if 0 < j then [(.ok (.addHF l.id j) : Res (Op ℚ))] else []).filter isR = [] := by
      intro j
      split <;> rfl
    rw [List.filter_append, List.filter_append, List.filter_append, List.filter_append, List.filter_append, List.filter_append, hj, hj, ← s5, ← s6]
    refine List.rel_append (List.rel_append (List.Forall₂.nil) ?_) ?_
    · exact flat_le (R := Eq) (List.forall₂_same.2 fun _ _ => rfl) fun a _ b hab => hab ▸ lineR_le h hr hl hs _ _ a
    · exact flat_le (R := Eq) (List.forall₂_same.2 fun _ _ => rfl) fun a _ b hab => hab ▸ lineR_le h hr hl hs _ _ a
  · rw [List.getElem?_eq_none (show T.length ≤ l.id by omega), List.getElem?_eq_none (show T'.length ≤ l.id by omega)]
    exact List.Forall₂.nil

theorem blocks_noR (m : PModel ℚ) : m.blocksOps.filter isR = [] := by
  have key : ∀ side (b : BC ℚ × (Nat → Bool)), (m.blockOps side b).filter isR = [] := by
    intro side b
    rw [List.filter_eq_nil_iff]
    intro o ho
    unfold PModel.blockOps at ho
    cases hv : b.1.value with
    | none => rw [hv] at ho; simp at ho
    | some x =>
      rw [hv] at ho
      simp only [List.mem_filterMap] at ho
      obtain ⟨p, -, hp⟩ := ho
      split_ifs at hp
      split at hp <;> (rw [Option.some.injEq] at hp; subst hp; simp [isR])
  unfold PModel.blocksOps
  rw [List.filter_append, List.append_eq_nil_iff]
  constructor
  · rw [List.filter_flatMap, List.flatMap_eq_nil_iff]
    exact fun b _ => key _ b
  · rw [List.filter_flatMap, List.flatMap_eq_nil_iff]
    exact fun b _ => key _ b

/-- the resistors of the networks of two models -/
theorem ns_lower (h : Pair m m') (hr : LessR m m') {minR : ℚ} (hm : 0 < minR) {T T' : List ℚ} {a b : Network ℚ} (ha : m.build minR T = .ok (some a))
    (hb : m'.build minR T' = .ok (some b)) : List.Forall₂ LeNs (a.map Node.ns) (b.map Node.ns) := by
  obtain ⟨l1, r1⟩ := PrismT.build_run ha
  obtain ⟨l2, r2⟩ := PrismT.build_run hb
  have hlines : m.lines.length = m'.lines.length := by simpa using congrArg List.length h.lines
  have htot : m.total = m'.total := by unfold PModel.total; rw [hlines, h.base]
  have hlen : T.length = T'.length := by rw [l1, l2, htot]
  rw [← htot] at r2
  refine run_le hm ?_ r1 r2
  unfold PModel.ops PModel.rangeOps
  rw [List.filter_append, List.filter_append, List.filter_append, List.filter_append, blocks_noR, blocks_noR, List.append_nil, List.append_nil, ← h.base]
  refine List.rel_append ?_ ?_
  · exact flat_le (R := Eq) (List.forall₂_same.2 fun _ _ => rfl) fun i _ j hij => hij ▸ elem_le h hr hlen i
  · refine flat_le (R := fun l l' => still l = still l') ?_ fun l hl l' hs => line_le h hr hlen hl hs
    have := h.lines
    rw [← List.forall₂_eq_eq_eq, List.forall₂_map_left_iff, List.forall₂_map_right_iff] at this
    exact this
end

/-! ## heat of the elements -/

section
variable {c : CutM} {v : View} {m m' : PModel ℚ} {mesh : Mesh} {layers : Nat} {ws : List (Wire ℚ)} {L L' : Nat → ℚ → ℚ} {I I' : Nat → ℚ}

theorem mem_tabled {e : Nat × Block} (he : e ∈ c.blocks) (L : Nat → ℚ → ℚ) : (e.1, { e.2 with lut := L e.1 }) ∈ (tabled c L).blocks :=
  List.mem_map_of_mem (f := fun e : Nat × Block => (e.1, { e.2 with lut := L e.1 })) he

/-- the triangles of a block, as the extraction finds them -/
theorem found (h : Proper (tabled c L) v m mesh layers (driven ws I)) {e : Nat × Block} (he : e ∈ c.blocks) {l t : Nat} (ht : t < mesh.length) :
    (if Solid c e.1 ∧ c.cut.layerByHeight e.2.range.high = some l ∧ search c v l t = some e.1 then v.area l t / c.area e.1 else 0) = part c v l t e := by
  unfold part
  obtain ⟨k, -, hw⟩ := h.whole _ (mem_tabled he L)
  have hsolid : Solid c e.1 := hw.solid
  have htop : c.cut.layerByHeight e.2.range.high = some k := hw.top
  by_cases hl : c.cut.layerByHeight e.2.range.high = some l
  · have hkl : k = l := by rw [htop, Option.some.injEq] at hl; exact hl
    subst hkl
    have hiff : search c v k t = some e.1 ↔ v.contains k t e.1 = true := by
      constructor
      · intro hs
        obtain ⟨ps, -, -, hc, -⟩ := search_some (c := c) h.hits hs
        exact hc
      · intro hc
        obtain ⟨ps, h1, h2, h3⟩ := hw.listed
        exact search_least (c := c) h.hits h1 h2 hc fun i hi hne hci => h3 t ht hc i hi hne hci
    simp only [hsolid, hl, true_and, hiff]
  · simp [hl]

theorem part_nonneg (h : Proper (tabled c L) v m mesh layers (driven ws I)) {e : Nat × Block} (he : e ∈ c.blocks) (l t : Nat) : 0 ≤ part c v l t e := by
  unfold part
  obtain ⟨k, -, hw⟩ := h.whole _ (mem_tabled he L)
  have : 0 ≤ (tabled c L).area e.1 := whole_area h.areas hw
  replace this : 0 ≤ c.area e.1 := this
  split_ifs
  · exact div_nonneg (h.areas l t) this
  · exact le_refl _

/-- the heat of a prism -/
theorem prism_heat (h : Proper (tabled c L) v m mesh layers (driven ws I)) {minR : ℚ} {T : List ℚ} {net : Network ℚ} (hb : m.build minR T = .ok (some net))
    {l t : Nat} (hc : (cellAt mesh.length layers (infoOf c v) l t).isSome = true) :
    hfOf net (gid mesh.length layers (infoOf c v) l t) =
      (c.blocks.map fun e => part c v l t e * L e.1 (T.getD (gid mesh.length layers (infoOf c v) l t) 0)).sum := by
  have hi := tabled_info c v L
  rw [some_same hi] at hc
  rw [gid_same hi]
  obtain ⟨y, hy⟩ := Option.isSome_iff_exists.1 hc
  have hlt := cellAt_lt hy
  obtain ⟨e1, e2, e3, -⟩ := extracted_prisms h.extracted
  have hp := e3 l t y hy
  generalize hgi : gid mesh.length layers (infoOf (tabled c L) v) l t = i at *
  have hlen := (build_run hb).1
  have hilt : i < T.length := by
    have := (List.getElem?_eq_some_iff.1 hp).1
    unfold PModel.total at hlen
    omega
  have hT : T[i]? = some (T.getD i 0) := by
    rw [List.getD_eq_getElem?_getD, List.getElem?_eq_getElem hilt]; rfl
  rw [(build_last hb (extracted_wf h.extracted).1 hp hT).1]
  have hsum := cell_heat (tabled c L) v (fun _ _ _ lut => lut (T.getD i 0)) h.blocks l t (elemAt mesh layers (infoOf (tabled c L) v) l t) fun y => ⟨rfl, rfl⟩
  have hinfo : infoOf (tabled c L) v l t = some y := by
    unfold cellAt at hy
    rw [if_pos hlt] at hy
    exact hy
  rw [hinfo] at hsum
  have hleft : (m.sources (prismAt mesh layers (infoOf (tabled c L) v) l t y) (T.getD i 0)).getLastD 0 =
      elemHeat (fun _ _ _ lut => lut (T.getD i 0)) l (elemAt mesh layers (infoOf (tabled c L) v) l t y) := by
    unfold PModel.sources
    rw [no_flux h, List.append_nil]
    unfold elemHeat
    show ((y.power.toList.map fun w => w.2.2 (T.getD i 0) * w.1).getLastD 0) = match y.power with | some (ratio, scen, lut) => ratio * lut (T.getD i 0) | none => 0
    cases y.power with
    | none => rfl
    | some w => exact mul_comm _ _
  rw [hleft]
  have hs2 : elemHeat (fun _ _ _ lut => lut (T.getD i 0)) l (elemAt mesh layers (infoOf (tabled c L) v) l t y) = _ := hsum
  rw [hs2]
  show (((c.blocks.map fun e => (e.1, { e.2 with lut := L e.1 })).map fun e : Nat × Block => _).sum) = _
  rw [List.map_map]
  congr 1
  apply List.map_congr_left
  intro e he
  rw [← found h he hlt.2]
  show (if Solid c e.1 ∧ c.cut.layerByHeight e.2.range.high = some l ∧ search c v l t = some e.1 then v.area l t / c.area e.1 * L e.1 (T.getD i 0) else 0) = _
  split_ifs
  · rfl
  · rw [zero_mul]

/-- the lines of driven wires -/
theorem line_segments (h : Proper (tabled c L) v m mesh layers (driven ws I)) :
    m.lines.map Line.data = (segments ws).map fun g => (g.2.1, I g.1, g.2.2.1, g.2.2.2) := by
  rw [data_wires _ _ _ _ h.extracted.lines, List.map_nil, List.nil_append]
  unfold driven segments
  rw [List.flatMap_map, List.map_flatMap]
  congr 1
  funext p
  rw [List.map_map]
  rfl

theorem lines_count (h : Proper (tabled c L) v m mesh layers (driven ws I)) : m.lines.length = (segments ws).length := by
  simpa using congrArg List.length (line_segments h)

/-- the heat of a segment of a wire -/
theorem line_heat (h : Proper (tabled c L) v m mesh layers (driven ws I)) {minR : ℚ} {T : List ℚ} {net : Network ℚ} (hb : m.build minR T = .ok (some net))
    {r : Nat → ℚ} (hr : ∀ k T, 0 ≤ r k ∧ m.resist k T = r k) {n : Nat} {g : Nat × Nat × ℚ × ℚ} (hg : (segments ws)[n]? = some g) :
    hfOf net (prismCount c v mesh.length layers + n) = I g.1 ^ 2 * (r g.2.1 * g.2.2.1 / g.2.2.2) := by
  have hn : n < m.lines.length := by rw [lines_count h]; exact (List.getElem?_eq_some_iff.1 hg).1
  have hbase : prismCount c v mesh.length layers = totalPrisms m.off := by
    unfold prismCount
    rw [before_same (tabled_info c v L), (extracted_prisms h.extracted).1]
  obtain ⟨-, a1, a2⟩ := lines_hf h hb (rlo := r) (rhi := r) (fun k T => ⟨(hr k T).1, (hr k T).2.ge, (hr k T).2.le⟩) hn
  rw [hbase, le_antisymm a2 a1]
  have := congrArg (fun l => l[n]?) (line_segments h)
  simp only [List.getElem?_map, hg, Option.map_some, List.getElem?_eq_getElem hn, Option.some.injEq] at this
  rw [this]
  rfl

theorem net_length (h : Proper (tabled c L) v m mesh layers (driven ws I)) {minR : ℚ} {T : List ℚ} {net : Network ℚ} (hb : m.build minR T = .ok (some net)) :
    net.length = prismCount c v mesh.length layers + (segments ws).length := by
  obtain ⟨net', hb', hl'⟩ := c63_builds h.extracted minR (build_run hb).1
  rw [hb, Res.ok.injEq, Option.some.injEq] at hb'
  rw [hb', hl']
  unfold PModel.total prismCount
  rw [lines_count h, before_same (tabled_info c v L), (extracted_prisms h.extracted).1]
  omega

/-- every element is a prism or a segment -/
theorem elem_cases (h : Proper (tabled c L) v m mesh layers (driven ws I)) {i : Nat} (hi : i < prismCount c v mesh.length layers + (segments ws).length) :
    (∃ l t, (cellAt mesh.length layers (infoOf c v) l t).isSome = true ∧ i = gid mesh.length layers (infoOf c v) l t) ∨
    ∃ n g, (segments ws)[n]? = some g ∧ i = prismCount c v mesh.length layers + n := by
  by_cases hp : i < prismCount c v mesh.length layers
  · obtain ⟨l, t, y, hy, hg⟩ := (gid_bijective mesh.length layers (infoOf c v)).2 i hp
    exact .inl ⟨l, t, by rw [hy]; rfl, hg.symm⟩
  · have hn : i - prismCount c v mesh.length layers < (segments ws).length := by omega
    exact .inr ⟨i - prismCount c v mesh.length layers, _, List.getElem?_eq_getElem hn, by omega⟩

theorem ground (h : Proper (tabled c L) v m mesh layers (driven ws I)) {minR : ℚ} (hm : 0 < minR) {T : List ℚ} {net : Network ℚ}
    (hb : m.build minR T = .ok (some net)) : Grounded net := by
  obtain ⟨net', hb', hg, -⟩ := c64_solvable h.extracted h.nbs h.cooled hm (build_run hb).1 0
  rw [hb, Res.ok.injEq, Option.some.injEq] at hb'
  rw [hb']
  exact hg

/-! ## transfer coefficients -/

/-- the second condition is the first with a value that is not smaller -/
def More (b b' : BC ℚ) : Prop := b.type = b'.type ∧ Option.Rel (· ≤ ·) b.value b'.value

/-- boundary conditions with values that are not smaller -/
structure MoreBC (m m' : PModel ℚ) : Prop where
  top : Option.Rel More m.topBC m'.topBC
  bot : Option.Rel More m.botBC m'.botBC
  tops : List.Forall₂ (fun b b' => More b.1 b'.1 ∧ b.2 = b'.2) m.topBlocks m'.topBlocks
  bots : List.Forall₂ (fun b b' => More b.1 b'.1 ∧ b.2 = b'.2) m.botBlocks m'.botBlocks

theorem more_refl (b : BC ℚ) : More b b := by
  refine ⟨rfl, ?_⟩
  cases b.value with
  | none => exact .none
  | some x => exact .some (le_refl _)

theorem more_same (h : SameBC m m') : MoreBC m m' := by
  have ho : ∀ o : Option (BC ℚ), Option.Rel More o o := by
    intro o
    cases o with
    | none => exact .none
    | some b => exact .some (more_refl b)
  refine ⟨h.top ▸ ho _, h.bot ▸ ho _, h.tops ▸ ?_, h.bots ▸ ?_⟩
  · exact List.forall₂_same.2 fun b _ => ⟨more_refl _, rfl⟩
  · exact List.forall₂_same.2 fun b _ => ⟨more_refl _, rfl⟩

theorem face_more {b b' : BC ℚ} (h : More b b') {a : ℚ} (ha : 0 ≤ a) (ty : BCType) : List.Forall₂ (· ≤ ·) (onFace ty b a) (onFace ty b' a) := by
  unfold onFace
  obtain ⟨h1, h2⟩ := h
  rw [h1]
  generalize b.value = x, b'.value = x' at h2
  cases h2 with
  | none => exact List.Forall₂.nil
  | some hx =>
    dsimp only
    split_ifs
    · exact List.Forall₂.cons (mul_le_mul_of_nonneg_right hx ha) List.Forall₂.nil
    · exact List.Forall₂.nil

theorem flat_rel {α β : Type} {f : α → List ℚ} {g : β → List ℚ} {R : α → β → Prop} {as : List α} {bs : List β} (h : List.Forall₂ R as bs)
    (hf : ∀ a b, R a b → List.Forall₂ (· ≤ ·) (f a) (g b)) : List.Forall₂ (· ≤ ·) (as.flatMap f) (bs.flatMap g) := by
  induction h with
  | nil => exact List.Forall₂.nil
  | cons h0 _ ih => exact List.rel_append (hf _ _ h0) ih

theorem last_le {as bs : List ℚ} (h : List.Forall₂ (· ≤ ·) as bs) : as.getLastD 0 ≤ bs.getLastD 0 := by
  have : ∀ d d' : ℚ, d ≤ d' → as.getLastD d ≤ bs.getLastD d' := by
    induction h with
    | nil => intro d d' hd; exact hd
    | cons h0 _ ih => intro d d' _; rw [List.getLastD_cons, List.getLastD_cons]; exact ih _ _ h0
  exact this 0 0 (le_refl _)

theorem option_list {R : BC ℚ → BC ℚ → Prop} {a b : Option (BC ℚ)} (h : Option.Rel R a b) : List.Forall₂ R a.toList b.toList := by
  cases h with
  | none => exact List.Forall₂.nil
  | some h => exact List.Forall₂.cons h List.Forall₂.nil

theorem faces_le (hs : m.area = m'.area) (hm : MoreBC m m') (ha : ∀ t, 0 < m.area t) {p p' : Prism ℚ} (hp : Alike p p') :
    (m.faces .htc p).getLastD 0 ≤ (m'.faces .htc p').getLastD 0 := by
  apply last_le
  unfold PModel.faces
  rw [← hp.top, ← hp.bot, ← hp.etop, ← hp.ebot, ← hp.tri, ← hs]
  have h0 := (ha p.elem.tri).le
  refine List.rel_append (List.rel_append (List.rel_append ?_ ?_) ?_) ?_
  · split_ifs
    · exact flat_rel (option_list hm.top) fun b b' hb => face_more hb h0 _
    · exact List.Forall₂.nil
  · split_ifs
    · exact flat_rel (option_list hm.bot) fun b b' hb => face_more hb h0 _
    · exact List.Forall₂.nil
  · refine flat_rel hm.tops fun b b' hb => ?_
    rw [← hb.2]
    split_ifs
    · exact face_more hb.1 h0 _
    · exact List.Forall₂.nil
  · refine flat_rel hm.bots fun b b' hb => ?_
    rw [← hb.2]
    split_ifs
    · exact face_more hb.1 h0 _
    · exact List.Forall₂.nil

theorem beyond (net : Network ℚ) {k : Nat} (hk : net.length ≤ k) : htcOf net k = 0 ∧ hfOf net k = 0 := by
  unfold htcOf hfOf
  rw [List.getElem?_eq_none hk]
  exact ⟨rfl, rfl⟩

theorem htc_le (h : Proper (tabled c L) v m mesh layers (driven ws I)) (h' : Proper (tabled c L') v m' mesh layers (driven ws I')) (hs : m.area = m'.area)
    (hm : MoreBC m m') {minR : ℚ} {T T' : List ℚ} {a b : Network ℚ} (ha : m.build minR T = .ok (some a)) (hb : m'.build minR T' = .ok (some b)) (i : Nat) :
    htcOf a i ≤ htcOf b i := by
  have la := net_length h ha
  have lb := net_length h' hb
  have lT := (build_run ha).1
  have lT' := (build_run hb).1
  have hpair : Pair m m' := pair_of (fun l t => ((tabled_info c v L) l t).symm.trans ((tabled_info c v L') l t)) h.extracted h'.extracted (driven_rest ws I I')
  rcases get_alike hpair i with ⟨h1, h2⟩ | ⟨p, p', h1, h2, h3⟩
  · rw [List.getElem?_eq_none_iff] at h1 h2
    rw [line_htc ha (extracted_wf h.extracted).1 (by rw [← (extracted_wf h.extracted).1.prisms]; exact h1),
      line_htc hb (extracted_wf h'.extracted).1 (by rw [← (extracted_wf h'.extracted).1.prisms]; exact h2)]
  · have q1 := (List.getElem?_eq_some_iff.1 h1).1
    have q2 := (List.getElem?_eq_some_iff.1 h2).1
    rw [(extracted_wf h.extracted).1.prisms] at q1
    rw [(extracted_wf h'.extracted).1.prisms] at q2
    unfold PModel.total at lT lT'
    rw [(build_last ha (extracted_wf h.extracted).1 h1 (List.getElem?_eq_getElem (show i < T.length by omega))).2,
      (build_last hb (extracted_wf h'.extracted).1 h2 (List.getElem?_eq_getElem (show i < T'.length by omega))).2]
    exact faces_le hs hm h.cooled.area h3

/-! ## pairs of networks -/

/-- conductivities that agree and do not depend on temperature -/
def SameK (m m' : PModel ℚ) : Prop := ∀ mat t t', m.k mat t = m'.k mat t'

theorem pair (h : Proper (tabled c L) v m mesh layers (driven ws I)) (h' : Proper (tabled c L') v m' mesh layers (driven ws I')) : Pair m m' :=
  pair_of (fun l t => ((tabled_info c v L) l t).symm.trans ((tabled_info c v L') l t)) h.extracted h'.extracted (driven_rest ws I I')

theorem shape_symm (h : Shape m m') : Shape m' m := ⟨h.area.symm, h.edgeLen.symm, h.toSide.symm, h.dist.symm, h.height.symm⟩

theorem bc_symm (h : SameBC m m') : SameBC m' m := ⟨h.top.symm, h.bot.symm, h.tops.symm, h.bots.symm⟩

theorem less_same (hs : Shape m m') (hk : SameK m m') : LessR m m' := by
  refine ⟨fun i n p q e t u t' u' _ _ _ => le_of_eq ?_, fun p q t u t' u' => le_of_eq ?_, fun l _ t t' => le_of_eq ?_⟩
  · unfold PModel.sideR
    rw [hs.height, hs.edgeLen, hs.toSide, hs.dist, hk _ t t', hk _ u u']
  · unfold PModel.vertR
    rw [hs.height, hs.area, hk _ t t', hk _ u u']
  · unfold PModel.aveK
    rw [hk _ t t']

/-- the resistors of models of the same form and materials -/
theorem same_ns (h : Proper (tabled c L) v m mesh layers (driven ws I)) (h' : Proper (tabled c L') v m' mesh layers (driven ws I')) (hs : Shape m m')
    (hk : SameK m m') {minR : ℚ} (hm : 0 < minR) {T T' : List ℚ} {a b : Network ℚ} (ha : m.build minR T = .ok (some a)) (hb : m'.build minR T' = .ok (some b)) :
    a.length = b.length ∧ ∀ (i : Nat) (n n' : Node ℚ), a[i]? = some n → b[i]? = some n' → n.ns = n'.ns := by
  refine ns_eq (ns_lower (pair h h') (less_same hs hk) hm ha hb) (ns_lower (pair h' h) (less_same (shape_symm hs) fun mat t t' => (hk mat t' t).symm) hm hb ha)

theorem same_net (h : Proper (tabled c L) v m mesh layers (driven ws I)) (h' : Proper (tabled c L') v m' mesh layers (driven ws I')) (hs : Shape m m')
    (hk : SameK m m') (hbc : SameBC m m') {minR : ℚ} (hm : 0 < minR) {T T' : List ℚ} {a b : Network ℚ} (ha : m.build minR T = .ok (some a))
    (hb : m'.build minR T' = .ok (some b)) : Same a b := by
  obtain ⟨h1, h2⟩ := same_ns h h' hs hk hm ha hb
  exact ⟨h1, h2, fun i => le_antisymm (htc_le h h' hs.area (more_same hbc) ha hb i) (htc_le h' h hs.area.symm (more_same (bc_symm hbc)) hb ha i)⟩

/-! ## sums -/

theorem sum_part_blocks (P : Nat → ℚ) (z : Nat → ℚ) (tris layers : Nat) :
    (c.blocks.map fun e => P e.1 * mean c v tris layers e z).sum =
      ∑ l ∈ range layers, ∑ t ∈ range tris, (c.blocks.map fun e => part c v l t e * P e.1).sum * z (gid tris layers (infoOf c v) l t) := by
  have e1 : ∀ l t, (c.blocks.map fun e => part c v l t e * P e.1).sum * z (gid tris layers (infoOf c v) l t) =
      (c.blocks.map fun e => P e.1 * (part c v l t e * z (gid tris layers (infoOf c v) l t))).sum := by
    intro l t
    rw [← List.sum_map_mul_right]
    congr 1
    apply List.map_congr_left
    intro e _
    ring
  simp only [e1]
  have e2 : ∀ l ∈ range layers, ∑ t ∈ range tris, (c.blocks.map fun e => P e.1 * (part c v l t e * z (gid tris layers (infoOf c v) l t))).sum =
      (c.blocks.map fun e => ∑ t ∈ range tris, P e.1 * (part c v l t e * z (gid tris layers (infoOf c v) l t))).sum :=
    fun l _ => sum_list_comm (range tris) c.blocks fun t e => P e.1 * (part c v l t e * z (gid tris layers (infoOf c v) l t))
  rw [Finset.sum_congr rfl e2, sum_list_comm (range layers) c.blocks fun l e => ∑ t ∈ range tris, P e.1 * (part c v l t e * z (gid tris layers (infoOf c v) l t))]
  congr 1
  apply List.map_congr_left
  intro e _
  unfold mean
  rw [Finset.mul_sum]
  refine Finset.sum_congr rfl fun l _ => ?_
  rw [Finset.mul_sum]

theorem sum_zipIdx {α : Type} (f : α → Nat → ℚ) (l : List α) : (l.zipIdx.map fun g => f g.1 g.2).sum = ∑ n ∈ range l.length, ((l[n]?.map fun a => f a n).getD 0) := by
  induction l using List.reverseRecOn with
  | nil => rfl
  | append_singleton l a ih =>
    rw [List.zipIdx_append, List.map_append, List.sum_append, ih, List.length_append, List.length_singleton, Finset.sum_range_succ]
    congr 1
    · refine Finset.sum_congr rfl fun n hn => ?_
      rw [List.getElem?_append_left (Finset.mem_range.1 hn)]
    · simp

/-- nothing lies where there is no element -/
theorem part_none (h : Proper (tabled c L) v m mesh layers (driven ws I)) {e : Nat × Block} (he : e ∈ c.blocks) {l t : Nat} (hl : l < layers) (ht : t < mesh.length)
    (hc : (cellAt mesh.length layers (infoOf c v) l t).isSome = false) : part c v l t e = 0 := by
  rw [← found h he ht]
  split_ifs with hcond
  · obtain ⟨h1, -, h3⟩ := hcond
    unfold cellAt at hc
    rw [if_pos ⟨hl, ht⟩] at hc
    unfold infoOf at hc
    rw [h3] at hc
    simp only [h1.1, Bool.false_eq_true, if_false, if_neg (fun hh : c.noMat = c.mat e.1 => h1.2 hh.symm), Option.isSome_some] at hc
    cases hc
  · rfl

/-- the heat of the network times `z` -/
theorem net_weighted (h : Proper (tabled c L) v m mesh layers (driven ws I)) {P : Nat → ℚ} (hP : ∀ e ∈ c.blocks, ∀ T, L e.1 T = P e.1) {minR : ℚ} {T : List ℚ}
    {net : Network ℚ} (hb : m.build minR T = .ok (some net)) {r : Nat → ℚ} (hr : ∀ k T, 0 ≤ r k ∧ m.resist k T = r k) (z : Nat → ℚ) :
    ∑ i ∈ range net.length, hfOf net i * z i = weighted c v mesh.length layers ws r P I z := by
  rw [net_length h hb, Finset.sum_range_add]
  unfold weighted
  congr 1
  · rw [sum_part_blocks]
    unfold prismCount
    rw [sum_gid]
    refine Finset.sum_congr rfl fun l hl => Finset.sum_congr rfl fun t ht => ?_
    cases hc : cellAt mesh.length layers (infoOf c v) l t with
    | none =>
      have : (c.blocks.map fun e => part c v l t e * P e.1).sum = 0 := by
        apply List.sum_eq_zero
        intro x hx
        rw [List.mem_map] at hx
        obtain ⟨e, he, rfl⟩ := hx
        rw [part_none h he (Finset.mem_range.1 hl) (Finset.mem_range.1 ht) (by rw [hc]; rfl), zero_mul]
      rw [this, zero_mul]
      rfl
    | some y =>
      simp only [Option.map_some, Option.getD_some]
      rw [prism_heat h hb (by rw [hc]; rfl)]
      congr 2
      apply List.map_congr_left
      intro e he
      rw [hP e he]
  · rw [sum_zipIdx (fun (g : Nat × Nat × ℚ × ℚ) n => I g.1 ^ 2 * (r g.2.1 * g.2.2.1 / g.2.2.2) * z (prismCount c v mesh.length layers + n)) (segments ws)]
    refine Finset.sum_congr rfl fun n hn => ?_
    have hg := List.getElem?_eq_getElem (Finset.mem_range.1 hn)
    rw [line_heat h hb hr hg, hg]
    rfl

end

/-! ## conduction -/

/-- lengths and areas of the mesh: none is negative, and the centre of a neighbour is not nearer than the common side -/
structure Sized (m : PModel ℚ) (mesh : Mesh) : Prop where
  height : ∀ l, 0 ≤ m.height l
  edgeLen : ∀ t e, 0 ≤ m.edgeLen t e
  toSide : ∀ t e, 0 ≤ m.toSide t e
  dist : ∀ t e t', nbOf mesh t e = some t' → m.toSide t e ≤ m.dist t t'

/-- conductivities that are positive, and not smaller in the second model, at all temperatures -/
def MoreK (m m' : PModel ℚ) : Prop := ∀ mat t t' j, 0 < m.k mat t j ∧ m.k mat t j ≤ m'.k mat t' j

section
variable {c : CutM} {v : View} {m m' : PModel ℚ} {mesh : Mesh} {layers : Nat} {ws : List (Wire ℚ)} {L L' : Nat → ℚ → ℚ} {I I' : Nat → ℚ}

theorem div_le {a k k' : ℚ} (ha : 0 ≤ a) (hk : 0 < k) (h : k ≤ k') : a / k' ≤ a / k := div_le_div_of_nonneg_left ha hk h

theorem less_more (h : Proper (tabled c L) v m mesh layers (driven ws I)) (hs : Shape m m') (hz : Sized m mesh) (hk : MoreK m m') : LessR m m' := by
  refine ⟨fun i n p q e t u t' u' hp he hq => ?_, fun p q t u t' u' => ?_, fun l hl t t' => ?_⟩
  · have hd : m.toSide p.elem.tri e ≤ m.dist p.elem.tri q.elem.tri := by
      obtain ⟨-, -, e3, e4⟩ := extracted_prisms h.extracted
      obtain ⟨l, s, y, -, -, rfl⟩ := e4 i p hp
      have he' : (nbOf mesh s e).bind (gslot mesh.length layers (infoOf (tabled c L) v) l) = some n := he
      cases hn : nbOf mesh s e with
      | none => rw [hn] at he'; simp at he'
      | some s' =>
        rw [hn, Option.bind_some] at he'
        unfold gslot at he'
        cases hy' : cellAt mesh.length layers (infoOf (tabled c L) v) l s' with
        | none => rw [hy'] at he'; simp at he'
        | some y' =>
          rw [hy', Option.map_some, Option.some.injEq] at he'
          have := e3 l s' y' hy'
          rw [he', hq, Option.some.injEq] at this
          rw [this]
          exact hz.dist s e s' hn
    unfold PModel.sideR
    rw [← hs.height, ← hs.edgeLen, ← hs.toSide, ← hs.dist]
    dsimp only
    have ha : 0 ≤ m.height p.layer * m.edgeLen p.elem.tri e := mul_nonneg (hz.height _) (hz.edgeLen _ _)
    have k1 : ∀ mat t t', 0 < 1 / 2 * (m.k mat t 0 + m.k mat t 1) ∧ 1 / 2 * (m.k mat t 0 + m.k mat t 1) ≤ 1 / 2 * (m'.k mat t' 0 + m'.k mat t' 1) := by
      intro mat t t'
      have a0 := hk mat t t' 0
      have a1 := hk mat t t' 1
      constructor <;> linarith [a0.1, a0.2, a1.1, a1.2]
    exact add_le_add (div_le_div_of_nonneg_right (div_le (hz.toSide _ _) (k1 _ t t').1 (k1 _ t t').2) ha)
      (div_le_div_of_nonneg_right (div_le (sub_nonneg.2 hd) (k1 _ u u').1 (k1 _ u u').2) ha)
  · unfold PModel.vertR
    rw [← hs.height, ← hs.area]
    have hh : ∀ l, 0 ≤ 1 / 2 * m.height l := fun l => mul_nonneg (by norm_num) (hz.height l)
    exact div_le_div_of_nonneg_right (add_le_add (div_le (hh _) (hk _ t t' 2).1 (hk _ t t' 2).2) (div_le (hh _) (hk _ u u' 2).1 (hk _ u u' 2).2)) (h.cooled.area _).le
  · obtain ⟨d1, d2⟩ := line_data h hl
    have k1 : 0 < m.aveK l.mat t ∧ m.aveK l.mat t ≤ m'.aveK l.mat t' := by
      unfold PModel.aveK
      have a0 := hk l.mat t t' 0
      have a1 := hk l.mat t t' 1
      have a2 := hk l.mat t t' 2
      constructor <;> linarith [a0.1, a0.2, a1.1, a1.2, a2.1, a2.2]
    exact div_le_div_of_nonneg_right (div_le (mul_nonneg (by norm_num) d1) k1.1 k1.2) d2

/-! ## the claims -/

/-- C138, existence: every proper prism model has steady temperatures -/
theorem c138_exists (h : Proper c v m mesh layers ws) {minR : ℚ} (hm : 0 < minR) (refT : ℚ) : ∃ x, Steady minR refT m x := by
  obtain ⟨net, hb, -, x, hx, -⟩ := c64_solvable h.extracted h.nbs h.cooled hm (iniT := List.replicate m.total refT) (by simp) refT
  exact ⟨x, _, net, hb, hx⟩

/-- C138, power and current: if no block has less power, whatever the temperatures, and no wire carries less current, then no element is colder. -/
theorem c138_power (h : Proper (tabled c L) v m mesh layers (driven ws I)) (h' : Proper (tabled c L') v m' mesh layers (driven ws I')) (hs : Shape m m')
    (hk : SameK m m') (hbc : SameBC m m') (hL : ∀ e ∈ c.blocks, ∀ T T', L e.1 T ≤ L' e.1 T') (hI : ∀ j, |I j| ≤ |I' j|) {r : Nat → ℚ}
    (hr : ∀ k T, 0 ≤ r k ∧ m.resist k T = r k ∧ m'.resist k T = r k) {minR : ℚ} (hm : 0 < minR) {refT : ℚ} {x y : Nat → ℚ} (hx : Steady minR refT m x)
    (hy : Steady minR refT m' y) : ∀ i < prismCount c v mesh.length layers + (segments ws).length, x i ≤ y i := by
  obtain ⟨T, a, ha, sx⟩ := hx
  obtain ⟨T', b, hb, sy⟩ := hy
  have hl := net_length h ha
  rw [← hl]
  refine c126_monotone (ground h hm ha) (same_net h h' hs hk hbc hm ha hb) (fun i hi => ?_) sx sy
  rw [hl] at hi
  rcases elem_cases h hi with ⟨l, t, hc, rfl⟩ | ⟨n, g, hg, rfl⟩
  · rw [prism_heat h ha hc, prism_heat h' hb hc]
    exact list_sum_le fun e he => mul_le_mul_of_nonneg_left (hL e he _ _) (part_nonneg h he l t)
  · rw [line_heat h ha (fun k T => ⟨(hr k T).1, (hr k T).2.1⟩) hg, line_heat h' hb (fun k T => ⟨(hr k T).1, (hr k T).2.2⟩) hg]
    refine mul_le_mul_of_nonneg_right (sq_le_sq.2 (hI _)) ?_
    have hmem := List.mem_of_getElem? hg
    unfold segments at hmem
    rw [List.mem_flatMap] at hmem
    obtain ⟨⟨w, j⟩, hw, hgw⟩ := hmem
    rw [List.mem_map] at hgw
    obtain ⟨s, -, rfl⟩ := hgw
    have hwires := h.wires { w with current := I j } (List.mem_map_of_mem (f := fun p : Wire ℚ × Nat => { p.1 with current := I p.2 }) hw)
    exact div_nonneg (mul_nonneg (hr w.mat 0).1 (hwires.2 s)) hwires.1

/-- C138, uniqueness: with conductivities, powers and resistivities that do not depend on the temperature a model has one vector of steady temperatures. -/
theorem c138_unique (h : Proper (tabled c L) v m mesh layers (driven ws I)) (hk : FixedK m) (hL : ∀ e ∈ c.blocks, ∀ T T', L e.1 T = L e.1 T') {r : Nat → ℚ}
    (hr : ∀ k T, 0 ≤ r k ∧ m.resist k T = r k) {minR : ℚ} (hm : 0 < minR) {refT : ℚ} {x y : Nat → ℚ} (hx : Steady minR refT m x) (hy : Steady minR refT m y) :
    ∀ i < prismCount c v mesh.length layers + (segments ws).length, x i = y i := by
  intro i hi
  have hs : Shape m m := ⟨rfl, rfl, rfl, rfl, rfl⟩
  have hbc : SameBC m m := ⟨rfl, rfl, rfl, rfl⟩
  exact le_antisymm
    (c138_power h h hs hk hbc (fun e he T T' => (hL e he T T').le) (fun _ => le_refl _) (fun k T => ⟨(hr k T).1, (hr k T).2, (hr k T).2⟩) hm hx hy i hi)
    (c138_power h h hs hk hbc (fun e he T T' => (hL e he T T').le) (fun _ => le_refl _) (fun k T => ⟨(hr k T).1, (hr k T).2, (hr k T).2⟩) hm hy hx i hi)

/-- C138, superposition: if the powers of the blocks are combinations of the powers in two other cases, and so are the squares of the currents, then the rises of
the temperatures over the surroundings are the same combinations of the rises in those cases. -/
theorem c138_superposition {ma mb : PModel ℚ} {Pa Pb P : Nat → ℚ} {Ia Ib : Nat → ℚ} (ha : Proper (tabled c fun k _ => Pa k) v ma mesh layers (driven ws Ia))
    (hb : Proper (tabled c fun k _ => Pb k) v mb mesh layers (driven ws Ib)) (h : Proper (tabled c fun k _ => P k) v m mesh layers (driven ws I)) (hsa : Shape m ma)
    (hsb : Shape m mb) (hka : SameK m ma) (hkb : SameK m mb) (hca : SameBC m ma) (hcb : SameBC m mb) {r : Nat → ℚ}
    (hr : ∀ k T, 0 ≤ r k ∧ ma.resist k T = r k ∧ mb.resist k T = r k ∧ m.resist k T = r k) {p q : ℚ} (hP : ∀ e ∈ c.blocks, P e.1 = p * Pa e.1 + q * Pb e.1)
    (hI : ∀ j, I j ^ 2 = p * Ia j ^ 2 + q * Ib j ^ 2) {minR : ℚ} (hm : 0 < minR) {refT : ℚ} {x y z : Nat → ℚ} (hx : Steady minR refT ma x)
    (hy : Steady minR refT mb y) (hz : Steady minR refT m z) :
    ∀ i < prismCount c v mesh.length layers + (segments ws).length, z i - refT = p * (x i - refT) + q * (y i - refT) := by
  obtain ⟨Ta, na, ba, sa⟩ := hx
  obtain ⟨Tb, nb, bb, sb⟩ := hy
  obtain ⟨T, n, bn, sn⟩ := hz
  have hl := net_length h bn
  rw [← hl]
  refine c126_superposition (ground h hm bn) (same_net h ha hsa hka hca hm bn ba) (same_net h hb hsb hkb hcb hm bn bb) p q (fun i hi => ?_) sa sb sn
  rw [hl] at hi
  rcases elem_cases h hi with ⟨l, t, hc, rfl⟩ | ⟨k, g, hg, rfl⟩
  · rw [prism_heat h bn hc, prism_heat ha ba hc, prism_heat hb bb hc, ← List.sum_map_mul_left, ← List.sum_map_mul_left, ← List.sum_map_add]
    congr 1
    apply List.map_congr_left
    intro e he
    rw [hP e he]
    ring
  · rw [line_heat h bn (fun k T => ⟨(hr k T).1, (hr k T).2.2.2⟩) hg, line_heat ha ba (fun k T => ⟨(hr k T).1, (hr k T).2.1⟩) hg,
      line_heat hb bb (fun k T => ⟨(hr k T).1, (hr k T).2.2.1⟩) hg, hI]
    ring

/-- of the blocks only one has power -/
theorem single_power (h : Proper (tabled c L) v m mesh layers (driven ws I)) {e : Nat × Block} (he : e ∈ c.blocks) (f : Nat × Block → ℚ) :
    (c.blocks.map fun d => (if d.1 = e.1 then 1 else 0) * f d).sum = f e := by
  have wf : UMap.WF c.blocks := by
    have := h.blocks
    unfold UMap.WF UMap.keys tabled at this
    rw [List.map_map] at this
    exact this
  have key : ∀ l : List (Nat × Block), UMap.WF l → e ∈ l → (l.map fun d => (if d.1 = e.1 then 1 else 0) * f d).sum = f e := by
    intro l wl hl
    induction l with
    | nil => cases hl
    | cons d l ih =>
      have wd : d.1 ∉ UMap.keys l ∧ (UMap.keys l).Nodup := List.nodup_cons.1 (show (d.1 :: UMap.keys l).Nodup from wl)
      rw [List.map_cons, List.sum_cons]
      rw [List.mem_cons] at hl
      rcases hl with rfl | hl
      · rw [if_pos rfl, one_mul]
        have : (l.map fun d => (if d.1 = e.1 then 1 else 0) * f d).sum = 0 := by
          apply List.sum_eq_zero
          intro x hx
          rw [List.mem_map] at hx
          obtain ⟨d, hd, rfl⟩ := hx
          rw [if_neg, zero_mul]
          intro hde
          exact wd.1 (hde ▸ List.mem_map_of_mem (f := Prod.fst) hd)
        rw [this, add_zero]
      · rw [if_neg, zero_mul, zero_add]
        · exact ih wd.2 hl
        · intro hde
          exact wd.1 (hde ▸ List.mem_map_of_mem (f := Prod.fst) hl)
  exact key c.blocks wf he

/-- C138, reciprocity: the powers in one case times the rises in another are the powers in the other times the rises in the first.  So a block heats
another as much on average as the other heats it. -/
theorem c138_reciprocity {P P' : Nat → ℚ} (h : Proper (tabled c fun k _ => P k) v m mesh layers (driven ws I))
    (h' : Proper (tabled c fun k _ => P' k) v m' mesh layers (driven ws I')) (hs : Shape m m') (hk : SameK m m') (hbc : SameBC m m') {r : Nat → ℚ}
    (hr : ∀ k T, 0 ≤ r k ∧ m.resist k T = r k ∧ m'.resist k T = r k) {minR : ℚ} (hm : 0 < minR) {refT : ℚ} {x y : Nat → ℚ} (hx : Steady minR refT m x)
    (hy : Steady minR refT m' y) :
    (weighted c v mesh.length layers ws r P I fun i => y i - refT) = (weighted c v mesh.length layers ws r P' I' fun i => x i - refT) ∧
    ∀ e ∈ c.blocks, ∀ e' ∈ c.blocks, (∀ k, P k = if k = e.1 then 1 else 0) → (∀ k, P' k = if k = e'.1 then 1 else 0) → (∀ j, I j = 0) → (∀ j, I' j = 0) →
      (mean c v mesh.length layers e fun i => y i - refT) = mean c v mesh.length layers e' fun i => x i - refT := by
  obtain ⟨T, a, ha, sx⟩ := hx
  obtain ⟨T', b, hb, sy⟩ := hy
  have hsame := same_net h h' hs hk hbc hm ha hb
  have key := (c126_reciprocity (ground h hm ha) hsame sx sy).1
  rw [net_weighted h (P := P) (fun _ _ _ => rfl) ha (fun k T => ⟨(hr k T).1, (hr k T).2.1⟩), hsame.length,
    net_weighted h' (P := P') (fun _ _ _ => rfl) hb (fun k T => ⟨(hr k T).1, (hr k T).2.2⟩)] at key
  refine ⟨key, fun e he e' he' hP hP' hI hI' => ?_⟩
  unfold weighted at key
  have z1 : ∀ (J : Nat → ℚ) (hJ : ∀ j, J j = 0) (z : Nat → ℚ),
      ((segments ws).zipIdx.map fun g => J g.1.1 ^ 2 * (r g.1.2.1 * g.1.2.2.1 / g.1.2.2.2) * z (prismCount c v mesh.length layers + g.2)).sum = 0 := by
    intro J hJ z
    apply List.sum_eq_zero
    intro w hw
    rw [List.mem_map] at hw
    obtain ⟨g, -, rfl⟩ := hw
    rw [hJ]
    ring
  rw [z1 I hI (fun i => y i - refT), z1 I' hI' (fun i => x i - refT), add_zero, add_zero] at key
  simp only [hP, hP'] at key
  rw [single_power h he (fun d => mean c v mesh.length layers d fun i => y i - refT), single_power h he' (fun d => mean c v mesh.length layers d fun i => x i - refT)] at key
  exact key

/-- C138, the hottest element lies in a power block or a bond wire: a temperature not below that of the surroundings which no element of a block and
no segment exceeds is exceeded nowhere. -/
theorem c138_hottest (h : Proper (tabled c L) v m mesh layers (driven ws I)) {minR : ℚ} (hm : 0 < minR) {refT top : ℚ} (ht : refT ≤ top) {x : Nat → ℚ}
    (hx : Steady minR refT m x)
    (hb : ∀ e ∈ c.blocks, ∀ l t, part c v l t e ≠ 0 → (cellAt mesh.length layers (infoOf c v) l t).isSome = true → x (gid mesh.length layers (infoOf c v) l t) ≤ top)
    (hl : ∀ n < (segments ws).length, x (prismCount c v mesh.length layers + n) ≤ top) :
    ∀ i < prismCount c v mesh.length layers + (segments ws).length, x i ≤ top := by
  obtain ⟨T, a, ha, sx⟩ := hx
  have hlen := net_length h ha
  rw [← hlen]
  refine c126_hottest (ground h hm ha) sx ht fun i hi hpos => ?_
  rw [hlen] at hi
  rcases elem_cases h hi with ⟨l, t, hc, rfl⟩ | ⟨n, g, hg, rfl⟩
  · rw [prism_heat h ha hc] at hpos
    obtain ⟨e, he, hne⟩ : ∃ e ∈ c.blocks, part c v l t e ≠ 0 := by
      by_contra hcon
      push Not at hcon
      apply hpos.ne'
      apply List.sum_eq_zero
      intro w hw
      rw [List.mem_map] at hw
      obtain ⟨e, he, rfl⟩ := hw
      rw [hcon e he, zero_mul]
    exact hb e he l t hne hc
  · exact hl n (List.getElem?_eq_some_iff.1 hg).1

/-- C138, cooling: with the same powers, none of which cools, and transfer coefficients that are not smaller no element is hotter. -/
theorem c138_cooling {P : Nat → ℚ} (h : Proper (tabled c fun k _ => P k) v m mesh layers (driven ws I))
    (h' : Proper (tabled c fun k _ => P k) v m' mesh layers (driven ws I)) (hs : Shape m m') (hk : SameK m m') (hbc : MoreBC m m')
    (hP : ∀ e ∈ c.blocks, 0 ≤ P e.1) {r : Nat → ℚ} (hr : ∀ k T, 0 ≤ r k ∧ m.resist k T = r k ∧ m'.resist k T = r k) {minR : ℚ} (hm : 0 < minR) {refT : ℚ}
    {x y : Nat → ℚ} (hx : Steady minR refT m x) (hy : Steady minR refT m' y) :
    ∀ i < prismCount c v mesh.length layers + (segments ws).length, y i ≤ x i := by
  obtain ⟨T, a, ha, sx⟩ := hx
  obtain ⟨T', b, hb, sy⟩ := hy
  have hlen := net_length h ha
  obtain ⟨n1, n2⟩ := same_ns h h' hs hk hm ha hb
  have hhf : ∀ i, hfOf a i = hfOf b i := by
    intro i
    by_cases hi : i < a.length
    · rw [hlen] at hi
      rcases elem_cases h hi with ⟨l, t, hc, rfl⟩ | ⟨n, g, hg, rfl⟩
      · rw [prism_heat h ha hc, prism_heat h' hb hc]
      · rw [line_heat h ha (fun k T => ⟨(hr k T).1, (hr k T).2.1⟩) hg, line_heat h' hb (fun k T => ⟨(hr k T).1, (hr k T).2.2⟩) hg]
    · rw [(beyond a (by omega)).2, (beyond b (by omega)).2]
  rw [← hlen]
  refine c126_cooling (ground h hm ha) ⟨n1, n2, htc_le h h' hs.area hbc ha hb, hhf⟩ (fun n hn => ?_) sx sy
  obtain ⟨k, hkn⟩ := List.getElem?_of_mem hn
  have hkl := (List.getElem?_eq_some_iff.1 hkn).1
  have hnk : hfOf a k = n.hf := by unfold hfOf; rw [hkn]
  rw [← hnk]
  by_cases hkp : k < totalPrisms m.off
  · refine prism_nonneg h ha (fun e he T => ?_) hkp
    unfold tabled at he
    rw [List.mem_map] at he
    obtain ⟨d, hd, rfl⟩ := he
    exact hP d hd
  · have hbase : prismCount c v mesh.length layers = totalPrisms m.off := by
      unfold prismCount
      rw [before_same (tabled_info c v fun k _ => P k), (extracted_prisms h.extracted).1]
    have hcnt := lines_count h
    have := (lines_hf h ha (rlo := r) (rhi := r) (fun k T => ⟨(hr k T).1, (hr k T).2.1.ge, (hr k T).2.1.le⟩) (n := k - totalPrisms m.off) (by omega)).1
    rwa [show totalPrisms m.off + (k - totalPrisms m.off) = k by omega] at this

/-- C138, materials: with the same powers, conductivities that are not smaller and transfer coefficients that are not smaller the rises weighted with the powers
are not larger. -/
theorem c138_materials {P : Nat → ℚ} (h : Proper (tabled c fun k _ => P k) v m mesh layers (driven ws I))
    (h' : Proper (tabled c fun k _ => P k) v m' mesh layers (driven ws I)) (hs : Shape m m') (hz : Sized m mesh) (hk : MoreK m m') (hbc : MoreBC m m')
    {r : Nat → ℚ} (hr : ∀ k T, 0 ≤ r k ∧ m.resist k T = r k ∧ m'.resist k T = r k) {minR : ℚ} (hm : 0 < minR) {refT : ℚ} {x y : Nat → ℚ}
    (hx : Steady minR refT m x) (hy : Steady minR refT m' y) :
    (weighted c v mesh.length layers ws r P I fun i => y i - refT) ≤ weighted c v mesh.length layers ws r P I fun i => x i - refT := by
  obtain ⟨T, a, ha, sx⟩ := hx
  obtain ⟨T', b, hb, sy⟩ := hy
  have hlen := net_length h ha
  have hns := ns_lower (pair h h') (less_more h hs hz hk) hm ha hb
  obtain ⟨n1, n2⟩ := at_ns hns
  have hhf : ∀ i, hfOf a i = hfOf b i := by
    intro i
    by_cases hi : i < a.length
    · rw [hlen] at hi
      rcases elem_cases h hi with ⟨l, t, hc, rfl⟩ | ⟨n, g, hg, rfl⟩
      · rw [prism_heat h ha hc, prism_heat h' hb hc]
      · rw [line_heat h ha (fun k T => ⟨(hr k T).1, (hr k T).2.1⟩) hg, line_heat h' hb (fun k T => ⟨(hr k T).1, (hr k T).2.2⟩) hg]
    · rw [(beyond a (by omega)).2, (beyond b (by omega)).2]
  have := (c126_conduction (ground h hm ha) (ground h' hm hb) ⟨n1, n2, htc_le h h' hs.area hbc ha hb, hhf⟩ sx sy).1
  rw [net_weighted h (P := P) (fun _ _ _ => rfl) ha (fun k T => ⟨(hr k T).1, (hr k T).2.1⟩),
    net_weighted h (P := P) (fun _ _ _ => rfl) ha (fun k T => ⟨(hr k T).1, (hr k T).2.1⟩)] at this
  exact this

theorem solves_on {net : Network ℚ} (hg : Grounded net) {refT : ℚ} {x y : Nat → ℚ} (h : ∀ k < net.length, x k = y k) (hx : Solves net refT x) :
    Solves net refT y := by
  intro i hi
  rw [← hx i hi, mulVec_eq_entries net.length _ i _ (fun t ht => (mem_gTriplets hg.inRange ht).2),
    mulVec_eq_entries net.length _ i _ (fun t ht => (mem_gTriplets hg.inRange ht).2)]
  refine Finset.sum_congr rfl fun k hk => ?_
  rw [h k (Finset.mem_range.1 hk)]

/-- C138, the static solver: what it returns are steady temperatures, after any positive number of rounds. -/
theorem c138_static (h : Proper c v m mesh layers ws) {minR : ℚ} (hm : 0 < minR) (envT limit : ℚ) (maximum celsius : Bool) (iteration : Nat)
    (hit : 1 ≤ iteration) (solve : Network ℚ → List ℚ) (hlen : ∀ net, (solve net).length = net.length)
    (hsol : ∀ net, Grounded net → Solves net envT fun i => (solve net)[i]?.getD 0) (fuel : Nat) (hf : iteration ≤ fuel) :
    ∃ r, Static.solveStatic (m.build minR) solve m.total envT limit maximum iteration celsius fuel = some (.ok (some r)) ∧ r.length = m.total ∧
      Steady minR envT m fun k => r[k]?.getD 0 + if celsius then (27315 / 100 : ℚ) else 0 := by
  have hbuild : ∀ T : List ℚ, T.length = m.total → ∃ net, m.build minR T = .ok (some net) ∧ net.length = m.total ∧ Grounded net := by
    intro T hT
    obtain ⟨net, hbd, hg, -⟩ := c64_solvable h.extracted h.nbs h.cooled hm hT envT
    obtain ⟨net', hbd', hl⟩ := c63_builds h.extracted minR hT
    rw [hbd, Res.ok.injEq, Option.some.injEq] at hbd'
    subst hbd'
    exact ⟨net, hbd, hl, hg⟩
  obtain ⟨T, n, t1, t2, t3, t4, t5, -⟩ := Static.c67_static_partial (m.build minR) solve m.total envT limit maximum celsius iteration hit
    (fun T hT => by obtain ⟨net, n1, n2, _⟩ := hbuild T hT; exact ⟨net, n1, n2⟩) hlen fuel hf
  obtain ⟨net, r1, r2⟩ := t5 (n - 1) (by omega)
  rw [Nat.sub_add_cancel t2] at r2
  have hTlen : (T (n - 1)).length = m.total := (build_run r1).1
  obtain ⟨net', n1, n2, hg⟩ := hbuild _ hTlen
  rw [r1, Res.ok.injEq, Option.some.injEq] at n1
  subst n1
  have hlT : (T n).length = m.total := by rw [r2, hlen, n2]
  refine ⟨_, t4, by split_ifs <;> simp [hlT], T (n - 1), net, r1, ?_⟩
  refine solves_on hg (fun k hk => ?_) (hsol net hg)
  rw [← r2]
  have hkT : k < (T n).length := by rw [r2, hlen]; exact hk
  cases celsius
  · simp
  · simp [List.getElem?_eq_getElem hkT]

end

/-! ## example -/

/-- two layers of two triangles with a block over both triangles of the upper layer and one over one triangle of the lower layer -/
def exTwo : CutM := { exPowerCut with blocks := [(0, ⟨⟨10, 5⟩, 7, fun _ => 3⟩), (1, ⟨⟨5, 0⟩, 8, fun _ => 1⟩)] }

/-- a wire of two segments between two prisms -/
def exBond : Wire ℚ := PrismBal.exWire

/-- such models for all powers and currents, with conductivity `kk` and transfer coefficient `hh` -/
theorem exTwo_proper (L : Nat → ℚ → ℚ) (I : Nat → ℚ) (kk hh : ℚ) (hp : 0 < hh) :
    ∃ m : PModel ℚ, Proper (tabled exTwo L) exPowerView m exPowerMesh 2 (driven [exBond] I) ∧
      ∃ off ps ls, m = { exPowerModel off ps with lines := ls, k := fun _ _ _ => kk, topBC := some ⟨.htc, some hh⟩ } := by
  obtain ⟨off, ps, h, ho, -⟩ := buildPrisms_eq exPowerMesh 2 (infoOf (tabled exTwo L) exPowerView)
  have hb : before exPowerMesh.length 2 (infoOf (tabled exTwo L) exPowerView) 2 = 4 := by
    rw [← before_same (tabled_info exTwo exPowerView L)]
    decide +kernel
  have ht : totalPrisms off = 4 := ho.trans hb
  have w1 : Whole exTwo exPowerView 2 0 0 ⟨⟨10, 5⟩, 7, fun _ => 3⟩ := by
    refine ⟨by decide, by decide, ⟨[0], rfl, by simp, ?_⟩, by decide, by decide +kernel⟩
    intro t _ _ i hi hne
    simp at hi
    exact absurd hi hne
  have w2 : Whole exTwo exPowerView 2 1 1 ⟨⟨5, 0⟩, 8, fun _ => 1⟩ := by
    refine ⟨by decide, by decide, ⟨[0, 1], rfl, by simp, ?_⟩, by decide, by decide +kernel⟩
    intro t _ _ i hi hne _
    simp at hi
    rcases hi with rfl | rfl
    · decide +kernel
    · exact absurd rfl hne
  obtain ⟨ls, hls⟩ : ∃ ls, addWires off [] (driven [exBond] I) = .ok ls := ⟨_, rfl⟩
  refine ⟨{ exPowerModel off ps with lines := ls, k := fun _ _ _ => kk, topBC := some ⟨.htc, some hh⟩ }, ⟨?_, ?_, ⟨h, hls, ?_⟩, ?_, ?_, ?_, ?_, ?_, ?_⟩,
    off, ps, ls, rfl⟩
  · simp [exTwo, tabled, UMap.WF, UMap.keys]
  · exact exPower_hits
  · intro w hw
    simp only [driven, List.zipIdx, List.map_cons, List.map_nil, List.mem_singleton] at hw
    subst hw
    show _ ∧ (∀ x ∈ [0], x < totalPrisms off) ∧ ∀ x ∈ [3], x < totalPrisms off
    rw [ht]
    exact ⟨by simp [exBond, PrismBal.exWire], by simp, by simp⟩
  · intro t n t' hn
    match t, n with
    | 0, 0 => exact ⟨0, by simp [nbOf, exPowerMesh] at hn; subst hn; rfl⟩
    | 1, 0 => exact ⟨0, by simp [nbOf, exPowerMesh] at hn; subst hn; rfl⟩
    | 0, 1 => simp [nbOf, exPowerMesh] at hn
    | 0, 2 => simp [nbOf, exPowerMesh] at hn
    | 1, 1 => simp [nbOf, exPowerMesh] at hn
    | 1, 2 => simp [nbOf, exPowerMesh] at hn
    | t + 2, n => simp [nbOf, exPowerMesh] at hn
  · intro e he
    simp only [tabled, exTwo, List.map_cons, List.map_nil, List.mem_cons, List.not_mem_nil, or_false] at he
    rcases he with rfl | rfl
    · exact ⟨0, by decide, w1.solid, w1.top, w1.listed, w1.area, w1.tiled⟩
    · exact ⟨1, by decide, w2.solid, w2.top, w2.listed, w2.area, w2.tiled⟩
  · intro l t
    simp [exPowerView]
  · refine ⟨fun t => by simp [exPowerModel], ?_, .inl ⟨hh, rfl⟩⟩
    intro bc hbc _ x hx
    simp only [exPowerModel, List.not_mem_nil, false_and, exists_false, or_false, reduceCtorEq] at hbc
    rw [Option.some.injEq] at hbc
    subst hbc
    simp at hx
    rw [← hx]
    exact hp
  · intro bc hbc
    simp [exPowerModel] at hbc
    subst hbc
    simp
  · intro w hw
    simp only [driven, List.zipIdx, List.map_cons, List.map_nil, List.mem_singleton] at hw
    subst hw
    refine ⟨by norm_num [exBond, PrismBal.exWire], fun s => ?_⟩
    show 0 ≤ (if s = 0 then (1 : ℚ) else 4)
    split_ifs <;> norm_num

/-- the hypotheses of the claims: four prisms and two segments; powers 1 and 0 against 0 and 1, a current of 1 A against 2 A, conductivity 1 against 3 and transfer
coefficient 4 against 5 -/
example : prismCount exTwo exPowerView 2 2 + (segments [exBond]).length = 6 ∧
    ∃ m m' n : PModel ℚ, Proper (tabled exTwo fun k _ => if k = 0 then 1 else 0) exPowerView m exPowerMesh 2 (driven [exBond] fun _ => 1) ∧
      Proper (tabled exTwo fun k _ => if k = 1 then 1 else 0) exPowerView m' exPowerMesh 2 (driven [exBond] fun _ => 2) ∧
      Proper (tabled exTwo fun k _ => if k = 0 then 1 else 0) exPowerView n exPowerMesh 2 (driven [exBond] fun _ => 1) ∧ Shape m m' ∧ SameK m m' ∧ SameBC m m' ∧
      (∀ k T, (0 : ℚ) ≤ 1 ∧ m.resist k T = 1 ∧ m'.resist k T = 1) ∧ Shape m n ∧ Sized m exPowerMesh ∧ MoreK m n ∧ MoreBC m n := by
  refine ⟨by decide +kernel, ?_⟩
  obtain ⟨m, h1, o1, p1, l1, rfl⟩ := exTwo_proper (fun k _ => if k = 0 then 1 else 0) (fun _ => 1) 1 4 (by norm_num)
  obtain ⟨m', h2, o2, p2, l2, rfl⟩ := exTwo_proper (fun k _ => if k = 1 then 1 else 0) (fun _ => 2) 1 4 (by norm_num)
  obtain ⟨n, h3, o3, p3, l3, rfl⟩ := exTwo_proper (fun k _ => if k = 0 then 1 else 0) (fun _ => 1) 3 5 (by norm_num)
  refine ⟨_, _, _, h1, h2, h3, ⟨rfl, rfl, rfl, rfl, rfl⟩, fun _ _ _ => rfl, ⟨rfl, rfl, rfl, rfl⟩, fun _ _ => ⟨by norm_num, rfl, rfl⟩, ⟨rfl, rfl, rfl, rfl, rfl⟩,
    ⟨fun _ => by simp [exPowerModel], fun _ _ => by simp [exPowerModel], fun _ _ => by simp [exPowerModel], fun _ _ _ _ => by simp [exPowerModel]⟩,
    fun _ _ _ _ => by norm_num, ⟨.some ⟨rfl, .some (by norm_num)⟩, .none, .nil, .nil⟩⟩

end Ecad.PrismResp
