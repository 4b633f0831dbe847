import Verif.Thermal.StackPrismNetProps
/-!
C77, blocks: what the boundary conditions of blocks would do to a stackup model whose elements have no neighbours of their own layer above
and below, that is, to any model at all (`c77_blocks_refuted` shows that the models of the extraction are never of that kind).
-/
namespace Ecad.PrismT
open Ecad.Thermal Ecad.GridT

variable {K : Type} [Field K]

/-- The condition of a block (its value, its area in square metres, what it covers) acts on the element with number `i`: it has a value, it
covers the element, and the side of the element it is for has no neighbour. -/
def ActsOn (m : SModel K) (side : Elem K → Option Nat) (b : BC K × K × (Nat → Nat → Bool)) (v : K) (i : Nat) (p : SPrism K) : Prop :=
  b.1.value = some v ∧ m.prisms[i]? = some p ∧ b.2.2 p.base.layer p.base.elem.tri = true ∧ side p.base.elem = none

theorem mem_blockOps {m : SModel K} {side : Elem K → Option Nat} {b : BC K × K × (Nat → Nat → Bool)} {o : Res (Op K)} :
    o ∈ m.blockOps side b ↔ ∃ v i p, ActsOn m side b v i p ∧
      ((b.1.type = .heatFlux ∧ o = .ok (.hf i (v * (m.area p.base.layer p.base.elem.tri / b.2.1)))) ∨
       (b.1.type = .htc ∧ o = .ok (.htc i (v * m.area p.base.layer p.base.elem.tri)))) := by
  unfold SModel.blockOps ActsOn
  cases hv : b.1.value with
  | none => simp
  | some v =>
    simp only [List.mem_filterMap, Prod.exists, List.mem_zipIdx_iff_getElem?]
    constructor
    · rintro ⟨p, i, hp, h⟩
      split_ifs at h with hc
      refine ⟨v, i, p, ⟨rfl, hp, hc.1, hc.2⟩, ?_⟩
      cases ht : b.1.type with
      | heatFlux =>
        rw [ht] at h
        left
        refine ⟨rfl, ?_⟩
        rw [← Option.some.inj h, SModel.areaOf, div_mul_eq_mul_div, mul_div_assoc]
      | htc =>
        rw [ht] at h
        right
        exact ⟨rfl, (Option.some.inj h).symm⟩
    · rintro ⟨v', i, p, ⟨h1, hp, hc, hn⟩, h⟩
      cases h1
      refine ⟨p, i, hp, ?_⟩
      rw [if_pos ⟨hc, hn⟩]
      rcases h with ⟨ht, rfl⟩ | ⟨ht, rfl⟩
      · rw [ht]
        simp only [SModel.areaOf, div_mul_eq_mul_div, mul_div_assoc]
      · rw [ht]
        rfl

/-- **C77, the calls of blocks.** In any stackup model, a heat flow is set by the conditions of blocks exactly when some block of the top
(the bottom) has a value, is of the type heat flux, covers an element that has nothing above (below) in its own list of neighbours, and the
heat flow is the share of the element in the area of the block. -/
theorem c77_block_flux (m : SModel K) (i : Nat) (w : K) :
    Res.ok (Op.hf i w) ∈ m.blocksOps ↔
      (∃ b ∈ m.topBlocks, ∃ v p, ActsOn m Elem.top b v i p ∧ b.1.type = .heatFlux ∧ w = v * (m.area p.base.layer p.base.elem.tri / b.2.1)) ∨
      (∃ b ∈ m.botBlocks, ∃ v p, ActsOn m Elem.bot b v i p ∧ b.1.type = .heatFlux ∧ w = v * (m.area p.base.layer p.base.elem.tri / b.2.1)) := by
  unfold SModel.blocksOps
  rw [List.mem_append, List.mem_flatMap, List.mem_flatMap]
  have key : ∀ side (b : BC K × K × (Nat → Nat → Bool)), Res.ok (Op.hf i w) ∈ m.blockOps side b ↔
      ∃ v p, ActsOn m side b v i p ∧ b.1.type = .heatFlux ∧ w = v * (m.area p.base.layer p.base.elem.tri / b.2.1) := by
    intro side b
    rw [mem_blockOps]
    constructor
    · rintro ⟨v, j, p, h, ⟨ht, ho⟩ | ⟨ht, ho⟩⟩
      · injection ho with ho; injection ho with h1 h2
        subst h1
        exact ⟨v, p, h, ht, h2⟩
      · injection ho with ho; cases ho
    · rintro ⟨v, p, h, ht, rfl⟩
      exact ⟨v, i, p, h, .inl ⟨ht, rfl⟩⟩
  simp only [key]

/-- the same for transfer coefficients, which are times the area of the element -/
theorem c77_block_htc (m : SModel K) (i : Nat) (w : K) :
    Res.ok (Op.htc i w) ∈ m.blocksOps ↔
      (∃ b ∈ m.topBlocks, ∃ v p, ActsOn m Elem.top b v i p ∧ b.1.type = .htc ∧ w = v * m.area p.base.layer p.base.elem.tri) ∨
      (∃ b ∈ m.botBlocks, ∃ v p, ActsOn m Elem.bot b v i p ∧ b.1.type = .htc ∧ w = v * m.area p.base.layer p.base.elem.tri) := by
  unfold SModel.blocksOps
  rw [List.mem_append, List.mem_flatMap, List.mem_flatMap]
  have key : ∀ side (b : BC K × K × (Nat → Nat → Bool)), Res.ok (Op.htc i w) ∈ m.blockOps side b ↔
      ∃ v p, ActsOn m side b v i p ∧ b.1.type = .htc ∧ w = v * m.area p.base.layer p.base.elem.tri := by
    intro side b
    rw [mem_blockOps]
    constructor
    · rintro ⟨v, j, p, h, ⟨ht, ho⟩ | ⟨ht, ho⟩⟩
      · injection ho with ho; cases ho
      · injection ho with ho; injection ho with h1 h2
        subst h1
        exact ⟨v, p, h, ht, h2⟩
    · rintro ⟨v, p, h, ht, rfl⟩
      exact ⟨v, i, p, h, .inr ⟨ht, rfl⟩⟩
  simp only [key]

/-- A model made by hand whose only element has nothing above and itself below -/
def exHand : SModel ℚ := { exStack with
  prisms := [⟨⟨0, ⟨⟨0, none⟩, 0, 0, fun _ => none, none, some 0⟩, fun _ => none, none, none⟩, [], []⟩]
  area := fun _ _ => 1 / 2
  topBlocks := [(⟨.heatFlux, some 3⟩, 2, fun _ _ => true)]
  botBlocks := [(⟨.htc, some 5⟩, 2, fun _ _ => true)] }

/-- the block on the top sets a quarter of its three watts -/
example : Res.ok (Op.hf 0 (3 / 4)) ∈ exHand.blocksOps :=
  (c77_block_flux exHand 0 _).2 (.inl ⟨_, List.mem_singleton.2 rfl, 3, _, ⟨rfl, rfl, rfl, rfl⟩, rfl, by norm_num [exHand]⟩)

/-- the block on the bottom sets nothing -/
example (w : ℚ) : Res.ok (Op.htc 0 w) ∉ exHand.blocksOps := by
  rw [c77_block_htc]
  rintro (⟨b, hb, v, p, _, ht, _⟩ | ⟨b, hb, v, p, ⟨_, hp, _, hn⟩, _⟩)
  · rw [List.mem_singleton.1 hb] at ht
    cases ht
  · cases hp
    cases hn

end Ecad.PrismT
