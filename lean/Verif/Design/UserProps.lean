import Verif.Design.UserModel
import Verif.Design.MountProps
import Verif.Basic.SmallProps
import Mathlib.Tactic.Linarith
import Mathlib.Tactic.FieldSimp
import Mathlib.Tactic.Ring
/-!
C128: What is created in user units lies within one database unit of what was asked for, towards zero; order and inclusion of boxes are kept; sizes
and distances are not, where the axes lie between.
-/
namespace Ecad.User
open Units Shp Trans

/-! ## specification -/

/-- the database coordinate `c` stands for the user coordinate `v`: it is whole, less than one database unit off, not farther from zero,
on no other side of zero, and exact if `v` is on the grid -/
def Stands (u : CoordUnits) (v c : ℚ) : Prop :=
  (∃ z : Int, c = z) ∧ |c * u.unit - v| < u.unit ∧ |c * u.unit| ≤ |v| ∧ 0 ≤ c * v ∧ ∀ z : Int, v = z * u.unit → c = z

/-- the same for both coordinates of a point -/
def StandsAt (u : CoordUnits) (p c : ℚ × ℚ) : Prop := Stands u p.1 c.1 ∧ Stands u p.2 c.2

/-- no point of the first box outside of the second -/
def Within (a b : Box ℚ) : Prop := b.lo.1 ≤ a.lo.1 ∧ b.lo.2 ≤ a.lo.2 ∧ a.hi.1 ≤ b.hi.1 ∧ a.hi.2 ≤ b.hi.2

/-- the first box to the left of the second or below, on opposite sides of a line or touching it -/
def Beside (a b : Box ℚ) : Prop := a.hi.1 ≤ b.lo.1 ∨ a.hi.2 ≤ b.lo.2

/-- a user coordinate that may be moved by `k` database units: it is on the grid, or stays on its side of zero -/
def Movable (u : CoordUnits) (v : ℚ) (k : Int) : Prop :=
  (∃ z : Int, v = z * u.unit) ∨ (0 ≤ v ∧ 0 ≤ v + k * u.unit) ∨ (v ≤ 0 ∧ v + k * u.unit ≤ 0)

/-- the point moved by `i` and `j` database units -/
def moved (u : CoordUnits) (i j : Int) (p : ℚ × ℚ) : ℚ × ℚ := (p.1 + i * u.unit, p.2 + j * u.unit)

/-! ## coordinates -/

theorem stands {u : CoordUnits} (hu : 0 < u.unit) (v : ℚ) : Stands u v (toCoord u v) := by
  obtain ⟨h1, h2, _, _⟩ := c14_units u hu
  obtain ⟨a, b, c⟩ := h2 v
  refine ⟨⟨_, rfl⟩, a, b, ?_, fun z hz => ?_⟩
  · unfold toUnit at c
    have e : (toCoord u v : ℚ) * v = toCoord u v * u.unit * v / u.unit := by field_simp
    rw [e]
    exact div_nonneg c hu.le
  · rw [hz]
    exact_mod_cast h1 z

theorem standsAt {u : CoordUnits} (hu : 0 < u.unit) (p : ℚ × ℚ) : StandsAt u p (whole (pt u p)) := ⟨stands hu _, stands hu _⟩

theorem coord_mono {u : CoordUnits} (hu : 0 < u.unit) {v w : ℚ} (h : v ≤ w) : (toCoord u v : ℚ) ≤ toCoord u w := by
  exact_mod_cast (c14_units u hu).2.2.1 v w h

theorem trunc_shift (q : ℚ) (k : Int) : trunc (q + k) = trunc q + k ↔
    (∃ z : Int, q = z) ∨ (0 ≤ q ∧ 0 ≤ q + k) ∨ (q ≤ 0 ∧ q + k ≤ 0) := by
  have hfc : ∀ x : ℚ, (∃ z : Int, x = z) ↔ ⌈x⌉ = ⌊x⌋ := by
    intro x
    constructor
    · rintro ⟨z, rfl⟩
      simp
    · intro h
      refine ⟨⌊x⌋, le_antisymm ?_ (Int.floor_le x)⟩
      have := Int.le_ceil x
      rw [h] at this
      exact this
  have e1 : ⌊q + (k : ℚ)⌋ = ⌊q⌋ + k := Int.floor_add_intCast q k
  have e2 : ⌈q + (k : ℚ)⌉ = ⌈q⌉ + k := Int.ceil_add_intCast q k
  unfold trunc
  rw [hfc]
  by_cases h1 : 0 ≤ q
  · by_cases h2 : 0 ≤ q + (k : ℚ)
    · rw [if_pos h1, if_pos h2, e1]
      simp [h1, h2]
    · rw [if_pos h1, if_neg h2, e2]
      constructor
      · intro h
        left
        omega
      · rintro (h | ⟨_, h⟩ | ⟨h, _⟩)
        · omega
        · exact absurd h h2
        · have : q = 0 := le_antisymm h h1
          subst this
          simp
  · by_cases h2 : 0 ≤ q + (k : ℚ)
    · rw [if_neg h1, if_pos h2, e1]
      constructor
      · intro h
        left
        omega
      · rintro (h | ⟨h, _⟩ | ⟨_, h⟩)
        · omega
        · exact absurd h h1
        · have h3 : q + (k : ℚ) = 0 := le_antisymm h h2
          have : q = ((-k : Int) : ℚ) := by push_cast; linarith
          rw [this, Int.floor_intCast, Int.ceil_intCast]
    · rw [if_neg h1, if_neg h2, e2]
      push Not at h1 h2
      simp [h1.le, h2.le]

theorem coord_shift {u : CoordUnits} (hu : 0 < u.unit) (v : ℚ) (k : Int) :
    toCoord u (v + k * u.unit) = toCoord u v + k ↔ Movable u v k := by
  unfold toCoord scale2Coord Movable
  have e : (v + k * u.unit) * (1 / u.unit) = v * (1 / u.unit) + k := by field_simp
  rw [e, trunc_shift]
  have hp : 0 < 1 / u.unit := by positivity
  have a1 : (∃ z : Int, v * (1 / u.unit) = z) ↔ ∃ z : Int, v = z * u.unit := by
    refine exists_congr fun z => ?_
    constructor
    · intro h
      rw [← h]
      field_simp
    · rintro rfl
      field_simp
  have a2 : ∀ w : ℚ, 0 ≤ w * (1 / u.unit) ↔ 0 ≤ w := fun w => mul_nonneg_iff_of_pos_right hp
  have a3 : ∀ w : ℚ, w * (1 / u.unit) ≤ 0 ↔ w ≤ 0 := fun w => by
    rw [← not_lt, ← not_lt, mul_pos_iff_of_pos_right hp]
  rw [a1, a2, a3, ← e, a2, a3]

/-! ## the claim -/

/-- C128, shapes: all points, radii and widths of created shapes stand for those given. -/
theorem c128_shapes {u : CoordUnits} (hu : 0 < u.unit) (e : Env) :
    (∀ ll ur, ∃ b, rectangle u ll ur = .rect b ∧ box u ll ur = b ∧ StandsAt u ll b.lo ∧ StandsAt u ur b.hi) ∧
    (∀ o r, ∃ o' r', circle e u o r = .circle o' r' e.circleDiv ∧ StandsAt u o o' ∧ Stands u r r') ∧
    (∀ l w, ∃ l' w', path u l w = .path l' w' ∧ List.Forall₂ (StandsAt u) l l' ∧ Stands u w w') ∧
    (∀ l r, ∃ l', polygon e u l r = .polygon l' ∧ (r ≤ 0 → List.Forall₂ (StandsAt u) l l' ∧ plainPolygon u l = .polygon l') ∧
      (0 < r → List.Forall₂ (StandsAt u) (e.roundCorners l r e.circleDiv) l')) := by
  have hp : ∀ l : List (ℚ × ℚ), List.Forall₂ (StandsAt u) l (pts u l) := by
    intro l
    unfold pts
    rw [List.forall₂_map_right_iff]
    induction l with
    | nil => exact .nil
    | cons p l ih => exact .cons (standsAt hu p) ih
  refine ⟨fun ll ur => ⟨_, rfl, rfl, standsAt hu _, standsAt hu _⟩, fun o r => ⟨_, _, rfl, standsAt hu _, stands hu _⟩,
    fun l w => ⟨_, _, rfl, hp l, stands hu _⟩, fun l r => ?_⟩
  unfold polygon
  by_cases hr : r > 0
  · rw [if_pos hr]
    exact ⟨_, rfl, fun h => absurd h (not_le.2 hr), fun _ => hp _⟩
  · rw [if_neg hr]
    exact ⟨_, rfl, fun _ => ⟨hp _, rfl⟩, fun h => absurd h hr⟩

/-- C128, order: rectangles with ordered corners are valid; boxes inside of others stay inside, boxes beside others stay beside. -/
theorem c128_order {u : CoordUnits} (hu : 0 < u.unit) (a b : Box ℚ) :
    (a.lo.1 ≤ a.hi.1 → a.lo.2 ≤ a.hi.2 → (rectangle u a.lo a.hi).isValid = true) ∧
    (Within a b → Within (box u a.lo a.hi) (box u b.lo b.hi)) ∧
    (Beside a b → Beside (box u a.lo a.hi) (box u b.lo b.hi)) := by
  have m := fun {v w : ℚ} (h : v ≤ w) => coord_mono hu h
  refine ⟨fun h1 h2 => ?_, fun h => ⟨m h.1, m h.2.1, m h.2.2.1, m h.2.2.2⟩, fun h => h.imp m m⟩
  unfold rectangle Shape.isValid
  simp only [Bool.and_eq_true, decide_eq_true_eq]
  exact ⟨m h1, m h2⟩

/-- C128 is false of moved shapes: a rectangle moved by whole database units becomes the rectangle moved by as many exactly if each of its
coordinates is on the grid or stays on its side of zero. -/
theorem c128_shift_partial {u : CoordUnits} (hu : 0 < u.unit) (ll ur : ℚ × ℚ) (i j : Int) :
    rectangle u (moved u i j ll) (moved u i j ur) = .rect ⟨((whole (pt u ll)).1 + i, (whole (pt u ll)).2 + j),
      ((whole (pt u ur)).1 + i, (whole (pt u ur)).2 + j)⟩ ↔
    Movable u ll.1 i ∧ Movable u ll.2 j ∧ Movable u ur.1 i ∧ Movable u ur.2 j := by
  rw [← coord_shift hu, ← coord_shift hu, ← coord_shift hu, ← coord_shift hu]
  unfold rectangle moved whole pt
  simp only [Shape.rect.injEq, Box.mk.injEq, Prod.mk.injEq]
  constructor
  · rintro ⟨⟨h1, h2⟩, h3, h4⟩
    exact ⟨by exact_mod_cast h1, by exact_mod_cast h2, by exact_mod_cast h3, by exact_mod_cast h4⟩
  · rintro ⟨h1, h2, h3, h4⟩
    exact ⟨⟨by exact_mod_cast h1, by exact_mod_cast h2⟩, by exact_mod_cast h3, by exact_mod_cast h4⟩

/-- every coordinate off the grid can be moved so that the move is not followed -/
theorem c128_shift_refuted {u : CoordUnits} (hu : 0 < u.unit) (v : ℚ) (h : ∀ z : Int, v ≠ z * u.unit) :
    ∃ k : Int, toCoord u (v + k * u.unit) ≠ toCoord u v + k := by
  rcases lt_trichotomy v 0 with hv | hv | hv
  · refine ⟨⌈-v / u.unit⌉, fun he => ?_⟩
    rw [coord_shift hu] at he
    have h1 := Int.le_ceil (-v / u.unit)
    rw [div_le_iff₀ hu] at h1
    rcases he with ⟨z, hz⟩ | ⟨h2, _⟩ | ⟨_, h2⟩
    · exact h z hz
    · linarith
    · refine h (-⌈-v / u.unit⌉) ?_
      push_cast
      linarith
  · exact absurd (by rw [hv]; simp) (h 0)
  · refine ⟨-⌈v / u.unit⌉, fun he => ?_⟩
    rw [coord_shift hu] at he
    have h1 := Int.le_ceil (v / u.unit)
    rw [div_le_iff₀ hu] at h1
    rcases he with ⟨z, hz⟩ | ⟨_, h2⟩ | ⟨h2, _⟩
    · exact h z hz
    · refine h ⌈v / u.unit⌉ ?_
      push_cast at h2
      linarith
    · linarith

/-- C128, sizes: between coordinates on one side of zero the distance is off by less than one database unit; between coordinates on both sides it
only shrinks, by less than two. -/
theorem c128_size {u : CoordUnits} (hu : 0 < u.unit) {v w : ℚ} (h : v ≤ w) :
    let d := (toCoord u w - toCoord u v : ℚ) * u.unit
    ((0 ≤ v ∨ w ≤ 0) → |d - (w - v)| < u.unit) ∧ (v ≤ 0 → 0 ≤ w → d ≤ w - v ∧ w - v < d + 2 * u.unit) := by
  obtain ⟨_, a1, a2, a3, _⟩ := stands hu v
  obtain ⟨_, b1, b2, b3, _⟩ := stands hu w
  have s1 : 0 ≤ v → (0 : ℚ) ≤ toCoord u v ∧ toCoord u v * u.unit ≤ v := by
    intro hv
    have h0 : (toCoord u 0 : ℚ) ≤ toCoord u v := coord_mono hu hv
    have z : toCoord u 0 = 0 := by simpa [toUnit] using (c14_units u hu).1 0
    rw [z] at h0
    have h0' : (0 : ℚ) ≤ toCoord u v := by simpa using h0
    refine ⟨h0', ?_⟩
    rwa [abs_of_nonneg (mul_nonneg h0' hu.le), abs_of_nonneg hv] at a2
  have s2 : 0 ≤ w → toCoord u w * u.unit ≤ w := fun hw => (le_abs_self _).trans (b2.trans (abs_of_nonneg hw).le)
  have s3 : v ≤ 0 → v ≤ toCoord u v * u.unit := by
    intro hv
    have := (neg_abs_le (toCoord u v * u.unit : ℚ))
    rw [abs_of_nonpos hv] at a2
    linarith
  have s4 : w ≤ 0 → w ≤ toCoord u w * u.unit := by
    intro hw
    have := (neg_abs_le (toCoord u w * u.unit : ℚ))
    rw [abs_of_nonpos hw] at b2
    linarith
  rw [abs_lt] at a1 b1
  intro d
  have hd : d = toCoord u w * u.unit - toCoord u v * u.unit := sub_mul _ _ _
  refine ⟨fun hs => ?_, fun hv hw => ?_⟩
  · rw [abs_lt]
    rcases hs with hv | hw
    · have := (s1 hv).2
      have := s2 (hv.trans h)
      constructor <;> linarith
    · have := s3 (h.trans hw)
      have := s4 hw
      constructor <;> linarith
  · have := s2 hw
    have := s3 hv
    constructor <;> linarith

/-- C128 is false of sizes: every width below two database units is the width of a rectangle that loses all of it. -/
theorem c128_size_refuted {u : CoordUnits} (hu : 0 < u.unit) {d : ℚ} (h0 : 0 ≤ d) (h2 : d < 2 * u.unit) (y y' : ℚ) :
    ∃ x x', x' - x = d ∧ ∀ b, rectangle u (x, y) (x', y') = .rect b → b.hi.1 - b.lo.1 = 0 := by
  have hz : ∀ v : ℚ, |v| < u.unit → (toCoord u v : ℚ) = 0 := by
    intro v hv
    obtain ⟨⟨z, hz⟩, _, b, _⟩ := stands hu v
    rw [hz] at b ⊢
    rw [abs_mul, abs_of_pos hu] at b
    have : |(z : ℚ)| < 1 := by
      by_contra hc
      push Not at hc
      nlinarith
    have h3 : |z| < 1 := by exact_mod_cast this
    have : z = 0 := Int.abs_lt_one_iff.1 h3
    rw [this]
    simp
  refine ⟨-(d / 2), d / 2, by ring, fun b hb => ?_⟩
  unfold rectangle at hb
  injection hb with hb
  subst hb
  unfold whole pt
  dsimp only
  rw [hz (d / 2) (by rw [abs_of_nonneg (by linarith)]; linarith),
    hz (-(d / 2)) (by rw [abs_neg, abs_of_nonneg (by linarith)]; linarith)]
  ring

/-- the coordinates of points one after the other -/
def flat (l : List (ℚ × ℚ)) : List ℚ := l.flatMap fun p => [p.1, p.2]

theorem flat_length (l : List (ℚ × ℚ)) : (flat l).length = 2 * l.length := by
  induction l with
  | nil => rfl
  | cons p l ih => simp [flat] at ih ⊢; omega

theorem pairs_flat (a l : List (ℚ × ℚ)) (r : List ℚ) : pairs (flat a ++ flat l ++ r) a.length l.length = .ok l := by
  induction l generalizing a with
  | nil => rfl
  | cons p l ih =>
    have e : flat a ++ flat (p :: l) ++ r = flat (a ++ [p]) ++ flat l ++ r := by simp [flat]
    have i1 := ih (a ++ [p])
    rw [← e, List.length_append, List.length_singleton] at i1
    have g1 : (flat a ++ flat (p :: l) ++ r)[a.length * 2]? = some p.1 := by
      rw [List.append_assoc, List.getElem?_append_right (by rw [flat_length]; omega), flat_length,
        show a.length * 2 - 2 * a.length = 0 by omega]
      simp [flat]
    have g2 : (flat a ++ flat (p :: l) ++ r)[a.length * 2 + 1]? = some p.2 := by
      rw [List.append_assoc, List.getElem?_append_right (by rw [flat_length]; omega), flat_length,
        show a.length * 2 + 1 - 2 * a.length = 1 by omega]
      simp [flat]
    rw [List.length_cons, pairs]
    simp only [Res.at_, g1, g2, i1, Res.bind]

/-- C128, coordinates: a polygon of coordinates is the polygon of the points they make, no call throws, and a last coordinate without partner
is dropped. -/
theorem c128_coords (e : Env) (u : CoordUnits) (l : List (ℚ × ℚ)) (r : ℚ) :
    polygonOf e u (flat l) r = .ok (polygon e u l r) ∧ ∀ z, polygonOf e u (flat l ++ [z]) r = .ok (polygon e u l r) := by
  have h1 : polygonOf e u (flat l) r = .ok (polygon e u l r) := by
    unfold polygonOf
    rw [flat_length, Nat.mul_div_cancel_left _ (by norm_num)]
    have := pairs_flat [] l []
    simp only [flat, List.flatMap_nil, List.nil_append, List.append_nil, List.length_nil] at this
    unfold flat
    rw [this]
    rfl
  refine ⟨h1, fun z => ?_⟩
  unfold polygonOf
  rw [List.length_append, flat_length, List.length_singleton, show (2 * l.length + 1) / 2 = l.length by omega]
  have := pairs_flat [] l [z]
  simp only [flat, List.flatMap_nil, List.nil_append, List.length_nil] at this
  unfold flat
  rw [this]
  rfl

/-! ## pins -/

/-- matrices that act on points as scalings, rotations, mirrorings and shifts do -/
structure Plane (M : Type) [Kit ℚ M] [MulAction M (ℚ × ℚ)] (cos sin : ℚ → ℚ) : Prop where
  scale : ∀ (s : ℚ) (p : ℚ × ℚ), (Kit.scaleT s : M) • p = (s * p.1, s * p.2)
  rotate : ∀ (r : ℚ) (p : ℚ × ℚ), (Kit.rotateT r : M) • p = (cos r * p.1 - sin r * p.2, sin r * p.1 + cos r * p.2)
  mirror : ∀ (m : Fin 3) (p : ℚ × ℚ), (Kit.mirrorT ℚ m : M) • p =
    (if m = 0 then p.1 else -p.1, if m = 1 then p.2 else -p.2)
  shift : ∀ (v p : ℚ × ℚ), (Kit.shiftT v : M) • p = (p.1 + v.1, p.2 + v.2)
  zero : cos 0 = 1 ∧ sin 0 = 0

/-- where a pin at `p` should be: mirrored if flipped, scaled, rotated, mirrored and shifted, in user units -/
def ideal (cos sin : ℚ → ℚ) (flipped : Bool) (s r : ℚ) (m : Option (Fin 3)) (o p : ℚ × ℚ) : ℚ × ℚ :=
  let p := if flipped then (-p.1, -p.2) else p
  let p := (s * p.1, s * p.2)
  let p := (cos r * p.1 - sin r * p.2, sin r * p.1 + cos r * p.2)
  let p := match m with
    | none => p
    | some a => (if a = 0 then p.1 else -p.1, if a = 1 then p.2 else -p.2)
  (p.1 + o.1, p.2 + o.2)

theorem matrix_act {M : Type} [Kit ℚ M] [MulAction M (ℚ × ℚ)] {cos sin : ℚ → ℚ} (hM : Plane M cos sin) (s r : ℚ) (m : Option (Fin 3))
    (o p : ℚ × ℚ) : (product M [⟨s, r, m, o⟩]) • p = ideal cos sin false s r m o p := by
  have e : product M [(⟨s, r, m, o⟩ : Data ℚ)] = (⟨s, r, m, o⟩ : Data ℚ).matrix M := by
    unfold product
    simp only [List.foldl_cons, List.foldl_nil, mul_one]
    split
    · rename_i h
      rw [Bool.not_eq_true'] at h
      rw [Data.matrix_of_not_transformed _ h]
    · rfl
  rw [e]
  have step1 : ∀ (t : M) (c : Prop) [Decidable c] (k : M) (q : ℚ × ℚ), (¬ c → k • (t • q) = t • q) →
      (if c then k * t else t) • q = k • (t • q) := by
    intro t c _ k q hc
    split
    · rw [mul_smul]
    · rename_i h
      exact (hc h).symm
  unfold Data.matrix ideal
  dsimp only
  rw [step1 _ _ _ _ (by
    intro h
    push Not at h
    rw [hM.shift, h]
    simp), hM.shift]
  have base : (if r ≠ 0 then (Kit.rotateT r : M) * (if s ≠ 1 then Kit.scaleT s * 1 else 1) else (if s ≠ 1 then Kit.scaleT s * 1 else 1)) • p =
      (cos r * (s * p.1) - sin r * (s * p.2), sin r * (s * p.1) + cos r * (s * p.2)) := by
    rw [step1 _ _ _ _ (by
      intro h
      push Not at h
      rw [hM.rotate, h, hM.zero.1, hM.zero.2]
      simp), hM.rotate, step1 _ _ _ _ (by
      intro h
      push Not at h
      rw [hM.scale, h]
      simp), hM.scale, one_smul]
  cases m with
  | none =>
    dsimp only
    rw [base]
    simp
  | some a =>
    dsimp only
    rw [mul_smul, base, hM.mirror]
    simp

/-- C128, pins: the location of a pin of a placed component is off, in each coordinate, by less than one database unit for the rounding of the result
and one for the offset, and by less than one for either coordinate of the pin, times what the scale and the rotation make of it. -/
theorem c128_pins {u : CoordUnits} (hu : 0 < u.unit) {M : Type} [Kit ℚ M] [MulAction M (ℚ × ℚ)] {cos sin : ℚ → ℚ} (hM : Plane M cos sin)
    (e : Env) (he : ∀ q, |(e.round q : ℚ) - q| < 1) (d : Mount.CompDef (ℚ × ℚ)) (name : String) (loc : ℚ × ℚ)
    (hn : Mount.findPin name d.pins = none) (s r : ℚ) (o : ℚ × ℚ) (m : Option (Fin 3)) (i : Nat) (flipped : Bool) :
    ∃ t p, transform M u s r o m = .ok t ∧ pinLocation e u ⟨i, t, flipped⟩ (createPin u d name loc) name = .ok (some p) ∧
      |p.1 - (ideal cos sin flipped s r m o loc).1| < (2 + |s| * (|cos r| + |sin r|)) * u.unit ∧
      |p.2 - (ideal cos sin flipped s r m o loc).2| < (2 + |s| * (|cos r| + |sin r|)) * u.unit := by
  refine ⟨⟨none, [⟨s, r, m, whole (pt u o)⟩]⟩, ?_⟩
  obtain ⟨t, ht, hp⟩ := Mount.pose_ok (M := M) ⟨i, ⟨none, [⟨s, r, m, whole (pt u o)⟩]⟩, flipped⟩
  have hfind : Mount.findPin name (createPin u d name loc).pins = some ⟨name, whole (pt u loc)⟩ := by
    simp [createPin, Mount.CompDef.createPin, Mount.findPin_append, hn]
  refine ⟨_, rfl, by simp only [pinLocation, Mount.Comp.pinLocation, hfind, ht, Res.bind, Option.map_some]; rfl, ?_⟩
  rw [hp, mul_smul]
  have hflip : (if flipped = true then Kit.mirrorT ℚ 2 else (1 : M)) • whole (pt u loc) =
      if flipped then (-(whole (pt u loc)).1, -(whole (pt u loc)).2) else whole (pt u loc) := by
    cases flipped
    · simp
    · simp [hM.mirror]
  rw [hflip, matrix_act hM]
  have hideal : ∀ w v : ℚ × ℚ, ideal cos sin false s r m w (if flipped then (-v.1, -v.2) else v) = ideal cos sin flipped s r m w v := by
    intro w v
    cases flipped <;> simp [ideal]
  rw [hideal]
  obtain ⟨⟨_, x1, _⟩, _, y1, _⟩ := standsAt hu loc
  obtain ⟨⟨_, a1, _⟩, _, b1, _⟩ := standsAt hu o
  generalize whole (pt u loc) = c at *
  generalize whole (pt u o) = v at *
  have key : ∀ q w g : ℚ, |q * u.unit - w| ≤ u.unit + |s| * (|cos r| + |sin r|) * u.unit → g = e.round q →
      |g * u.unit - w| < (2 + |s| * (|cos r| + |sin r|)) * u.unit := by
    intro q w g h hg
    subst hg
    have h1 : (e.round q : ℚ) * u.unit - w = ((e.round q : ℚ) - q) * u.unit + (q * u.unit - w) := by ring
    rw [h1]
    have h2 := abs_add_le (((e.round q : ℚ) - q) * u.unit) (q * u.unit - w)
    rw [abs_mul, abs_of_pos hu] at h2
    have := mul_lt_mul_of_pos_right (he q) hu
    linarith
  have lin : ∀ (a b p q dx dy : ℚ), |dx| ≤ u.unit → |dy| ≤ u.unit → |a| ≤ |s| * p → |b| ≤ |s| * q → |a * dx + b * dy| ≤ |s| * (p + q) * u.unit := by
    intro a b p q dx dy hx hy ha hb
    have h1 := abs_add_le (a * dx) (b * dy)
    rw [abs_mul, abs_mul] at h1
    have h2 := mul_le_mul ha hx (abs_nonneg _) ((abs_nonneg _).trans ha)
    have h3 := mul_le_mul hb hy (abs_nonneg _) ((abs_nonneg _).trans hb)
    linarith
  have core : ∀ (a b dx dy ov oo : ℚ), |dx| < u.unit → |dy| < u.unit → |ov * u.unit - oo| < u.unit →
      (|a| ≤ |s| * |cos r| ∧ |b| ≤ |s| * |sin r| ∨ |a| ≤ |s| * |sin r| ∧ |b| ≤ |s| * |cos r|) →
      |(a * dx + b * dy) + (ov * u.unit - oo)| ≤ u.unit + |s| * (|cos r| + |sin r|) * u.unit := by
    intro a b dx dy ov oo hx hy ho hab
    have h1 := abs_add_le (a * dx + b * dy) (ov * u.unit - oo)
    rcases hab with ⟨ha, hb⟩ | ⟨ha, hb⟩
    · have := lin a b _ _ dx dy hx.le hy.le ha hb
      linarith
    · have := lin a b _ _ dx dy hx.le hy.le ha hb
      linarith
  have ab : ∀ x y : ℚ, |x * y| ≤ |x| * |y| ∧ |-(x * y)| ≤ |x| * |y| := fun x y => by
    rw [abs_neg, abs_mul]
    exact ⟨le_refl _, le_refl _⟩
  constructor
  · refine key _ _ _ ?_ rfl
    have hs : ∀ k l : ℚ, |k| ≤ |s| * |cos r| → |l| ≤ |s| * |sin r| →
        |(k * c.1 + l * c.2 + v.1) * u.unit - (k * loc.1 + l * loc.2 + o.1)| ≤ u.unit + |s| * (|cos r| + |sin r|) * u.unit := by
      intro k l hk hl
      have := core k l _ _ v.1 o.1 x1 y1 a1 (Or.inl ⟨hk, hl⟩)
      refine le_trans (le_of_eq ?_) this
      congr 1
      ring
    cases flipped <;> rcases m with _ | m <;> simp only [ideal, if_true, Bool.false_eq_true, if_false]
    · convert hs (s * cos r) (-(s * sin r)) (ab _ _).1 (ab _ _).2 using 3 <;> ring
    · split
      · convert hs (s * cos r) (-(s * sin r)) (ab _ _).1 (ab _ _).2 using 3 <;> ring
      · convert hs (-(s * cos r)) (s * sin r) (ab _ _).2 (ab _ _).1 using 3 <;> ring
    · convert hs (-(s * cos r)) (s * sin r) (ab _ _).2 (ab _ _).1 using 3 <;> ring
    · split
      · convert hs (-(s * cos r)) (s * sin r) (ab _ _).2 (ab _ _).1 using 3 <;> ring
      · convert hs (s * cos r) (-(s * sin r)) (ab _ _).1 (ab _ _).2 using 3 <;> ring
  · refine key _ _ _ ?_ rfl
    have hs : ∀ k l : ℚ, |k| ≤ |s| * |sin r| → |l| ≤ |s| * |cos r| →
        |(k * c.1 + l * c.2 + v.2) * u.unit - (k * loc.1 + l * loc.2 + o.2)| ≤ u.unit + |s| * (|cos r| + |sin r|) * u.unit := by
      intro k l hk hl
      have := core k l _ _ v.2 o.2 x1 y1 b1 (Or.inr ⟨hk, hl⟩)
      refine le_trans (le_of_eq ?_) this
      congr 1
      ring
    cases flipped <;> rcases m with _ | m <;> simp only [ideal, if_true, Bool.false_eq_true, if_false]
    · convert hs (s * sin r) (s * cos r) (ab _ _).1 (ab _ _).1 using 3 <;> ring
    · split
      · convert hs (s * sin r) (s * cos r) (ab _ _).1 (ab _ _).1 using 3 <;> ring
      · convert hs (-(s * sin r)) (-(s * cos r)) (ab _ _).2 (ab _ _).2 using 3 <;> ring
    · convert hs (-(s * sin r)) (-(s * cos r)) (ab _ _).2 (ab _ _).2 using 3 <;> ring
    · split
      · convert hs (-(s * sin r)) (-(s * cos r)) (ab _ _).2 (ab _ _).2 using 3 <;> ring
      · convert hs (s * sin r) (s * cos r) (ab _ _).1 (ab _ _).1 using 3 <;> ring

/-! ## examples -/

/-- micrometres over nanometres -/
def exUnits : CoordUnits := make (1 / 1000000) (1 / 1000000000)

/-- settings of the examples -/
def exEnv : Env := ⟨12, fun l _ _ => l, trunc⟩

example : 0 < exUnits.unit := by norm_num [exUnits, make]

/-- 1.9999 nm wide, nothing remains; 0.5 nm moved by one is not the same as one moved by 0.5 nm -/
example : rectangle exUnits (-999 / 1000000, 0) (999 / 1000000, 1) = .rect ⟨(0, 0), (0, 1000)⟩ ∧
    toCoord exUnits (-1 / 2000 + 1 * exUnits.unit) ≠ toCoord exUnits (-1 / 2000) + 1 := by
  decide +kernel

example : polygonOf exEnv exUnits [0, 0, 1, 0, 1, 1, 7] 0 = .ok (.polygon [(0, 0), (1000, 0), (1000, 1000)]) := by decide +kernel

/-- affine maps of the plane that rotate by quarter turns: `r` counts them (0 none, else one) -/
local instance exKit : Kit ℚ (Function.End (ℚ × ℚ)) where
  scaleT s := fun p => (s * p.1, s * p.2)
  rotateT r := fun p => if r = 0 then p else (-p.2, p.1)
  mirrorT m := fun p => (if m = 0 then p.1 else -p.1, if m = 1 then p.2 else -p.2)
  shiftT v := fun p => (p.1 + v.1, p.2 + v.2)

/-- The hypotheses of `c128_pins` can be met. -/
example : Plane (Function.End (ℚ × ℚ)) (fun r => if r = 0 then 1 else 0) (fun r => if r = 0 then 0 else 1) ∧
    (∀ q, |(exEnv.round q : ℚ) - q| < 1) ∧ Mount.findPin "a" (⟨[], none⟩ : Mount.CompDef (ℚ × ℚ)).pins = none := by
  refine ⟨⟨fun _ _ => rfl, fun r p => ?_, fun _ _ => rfl, fun _ _ => rfl, by simp⟩, fun q => (trunc_spec q).1, rfl⟩
  show (if r = 0 then p else (-p.2, p.1)) = _
  by_cases h : r = 0 <;> simp [h]

end Ecad.User
