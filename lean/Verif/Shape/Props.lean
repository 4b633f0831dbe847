import Verif.Shape.Model
import Mathlib.Tactic.Linarith
import Mathlib.Tactic.LinearCombination
import Mathlib.Tactic.Ring
import Mathlib.Tactic.FieldSimp
import Mathlib.Tactic.NormNum
import Mathlib.Algebra.Order.Ring.Rat
import Mathlib.Algebra.Field.Rat
/-!
Transforming shapes (C82) and their bounding boxes (C83).
-/
namespace Ecad.Shp

variable {K : Type} [Field K] [LinearOrder K]

/-! ### specification -/

/-- the points of a box -/
def InBox (b : Box K) (p : K × K) : Prop := b.lo.1 ≤ p.1 ∧ p.1 ≤ b.hi.1 ∧ b.lo.2 ≤ p.2 ∧ p.2 ≤ b.hi.2

/-- the points of a disc -/
def InDisc (o : K × K) (r : K) (p : K × K) : Prop := (p.1 - o.1) ^ 2 + (p.2 - o.2) ^ 2 ≤ r ^ 2

/-- `A` after a transform is the image of `A` before -/
def IsImage (m : Aff K) (A B : K × K → Prop) : Prop := ∀ q, B q ↔ ∃ p, A p ∧ m.act p = q

/-- determinant of the linear part -/
def Aff.det (m : Aff K) : K := m.a * m.d - m.b * m.c

/-- rotations by a multiple of a quarter turn, mirrors at the axes, scalings, shifts: the axes are
mapped to the axes -/
def Aff.Axial (m : Aff K) : Prop := (m.b = 0 ∧ m.c = 0) ∨ (m.a = 0 ∧ m.d = 0)

/-- rotations, mirrors and shifts -/
def Aff.Isometry (m : Aff K) : Prop := m.a ^ 2 + m.c ^ 2 = 1 ∧ m.b ^ 2 + m.d ^ 2 = 1 ∧ m.a * m.b + m.c * m.d = 0

/-! ### lemmas -/

omit [LinearOrder K] in
theorem comp_act (n m : Aff K) (p : K × K) : (n.comp m).act p = n.act (m.act p) := by
  simp only [Aff.comp, Aff.act, Prod.mk.injEq]
  constructor <;> ring

omit [LinearOrder K] in
theorem one_act (p : K × K) : (Aff.one : Aff K).act p = p := by simp [Aff.one, Aff.act]

section
variable [IsStrictOrderedRing K]

theorem foldl_add_iff (ps : List (K × K)) (b : Box K) :
    (ps.foldl Box.add b).lo.1 ≤ b.lo.1 ∧ (ps.foldl Box.add b).lo.2 ≤ b.lo.2 ∧
    b.hi.1 ≤ (ps.foldl Box.add b).hi.1 ∧ b.hi.2 ≤ (ps.foldl Box.add b).hi.2 ∧
    (∀ p ∈ ps, InBox (ps.foldl Box.add b) p) := by
  induction ps generalizing b with
  | nil => simp
  | cons q ps ih =>
    obtain ⟨h1, h2, h3, h4, h5⟩ := ih (b.add q)
    simp only [List.foldl_cons]
    simp only [Box.add, le_min_iff, max_le_iff] at h1 h2 h3 h4
    refine ⟨h1.1, h2.1, h3.1, h4.1, ?_⟩
    intro p hp
    rcases List.mem_cons.1 hp with rfl | hp
    · exact ⟨h1.2, h3.2, h2.2, h4.2⟩
    · exact h5 p hp

theorem foldl_add_least (ps : List (K × K)) (b c : Box K) (hb : c.lo.1 ≤ b.lo.1 ∧ c.lo.2 ≤ b.lo.2 ∧ b.hi.1 ≤ c.hi.1 ∧ b.hi.2 ≤ c.hi.2)
    (h : ∀ p ∈ ps, InBox c p) :
    c.lo.1 ≤ (ps.foldl Box.add b).lo.1 ∧ c.lo.2 ≤ (ps.foldl Box.add b).lo.2 ∧
    (ps.foldl Box.add b).hi.1 ≤ c.hi.1 ∧ (ps.foldl Box.add b).hi.2 ≤ c.hi.2 := by
  induction ps generalizing b with
  | nil => exact hb
  | cons q ps ih =>
    simp only [List.foldl_cons]
    obtain ⟨q1, q2, q3, q4⟩ := h q List.mem_cons_self
    refine ih (b.add q) ⟨le_min hb.1 q1, le_min hb.2.1 q3, max_le hb.2.2.1 q2, max_le hb.2.2.2 q4⟩ ?_
    exact fun p hp => h p (List.mem_cons_of_mem _ hp)

/-- the extent of points contains them -/
theorem extent_mem (ps : List (K × K)) (p : K × K) (hp : p ∈ ps) : InBox (extent ps) p := by
  cases ps with
  | nil => simp at hp
  | cons q ps =>
    have h := foldl_add_iff ps ⟨q, q⟩
    simp only [extent]
    rcases List.mem_cons.1 hp with rfl | hp
    · exact ⟨h.1, h.2.2.1, h.2.1, h.2.2.2.1⟩
    · exact h.2.2.2.2 p hp

/-- the extent of points lies in every box that contains them -/
theorem extent_least (ps : List (K × K)) (hne : ps ≠ []) (c : Box K) (h : ∀ p ∈ ps, InBox c p) :
    c.lo.1 ≤ (extent ps).lo.1 ∧ c.lo.2 ≤ (extent ps).lo.2 ∧ (extent ps).hi.1 ≤ c.hi.1 ∧ (extent ps).hi.2 ≤ c.hi.2 := by
  cases ps with
  | nil => exact absurd rfl hne
  | cons q ps =>
    obtain ⟨q1, q2, q3, q4⟩ := h q List.mem_cons_self
    exact foldl_add_least ps ⟨q, q⟩ c ⟨q1, q3, q2, q4⟩ fun p hp => h p (List.mem_cons_of_mem _ hp)

/-- a linear function on an interval lies between its values at the ends -/
theorem mul_between (a l h x : K) (h1 : l ≤ x) (h2 : x ≤ h) : min (a * l) (a * h) ≤ a * x ∧ a * x ≤ max (a * l) (a * h) := by
  rcases le_total 0 a with ha | ha
  · exact ⟨(min_le_left _ _).trans (mul_le_mul_of_nonneg_left h1 ha), (mul_le_mul_of_nonneg_left h2 ha).trans (le_max_right _ _)⟩
  · exact ⟨(min_le_right _ _).trans (mul_le_mul_of_nonpos_left h2 ha), (mul_le_mul_of_nonpos_left h1 ha).trans (le_max_left _ _)⟩

/-- what the extent of the transformed corners of a box is -/
theorem extent_corners (m : Aff K) (b : Box K) :
    extent (b.corners.map m.act) =
      ⟨(min (m.a * b.lo.1) (m.a * b.hi.1) + min (m.b * b.lo.2) (m.b * b.hi.2) + m.tx,
        min (m.c * b.lo.1) (m.c * b.hi.1) + min (m.d * b.lo.2) (m.d * b.hi.2) + m.ty),
       (max (m.a * b.lo.1) (m.a * b.hi.1) + max (m.b * b.lo.2) (m.b * b.hi.2) + m.tx,
        max (m.c * b.lo.1) (m.c * b.hi.1) + max (m.d * b.lo.2) (m.d * b.hi.2) + m.ty)⟩ := by
  have key : ∀ p q r s t : K, min (min (min (p + r + t) (q + r + t)) (q + s + t)) (p + s + t) = min p q + min r s + t := by
    intro p q r s t
    rcases le_total p q with h1 | h1 <;> rcases le_total r s with h2 | h2 <;>
      simp only [min_eq_left, min_eq_right, h1, h2] <;>
      apply le_antisymm <;> simp only [min_le_iff, le_min_iff] <;>
      first
      | (refine ⟨⟨⟨?_, ?_⟩, ?_⟩, ?_⟩ <;> linarith)
      | (left; left; left; linarith)
      | (left; left; right; linarith)
      | (left; right; linarith)
      | (right; linarith)
  have key' : ∀ p q r s t : K, max (max (max (p + r + t) (q + r + t)) (q + s + t)) (p + s + t) = max p q + max r s + t := by
    intro p q r s t
    rcases le_total p q with h1 | h1 <;> rcases le_total r s with h2 | h2 <;>
      simp only [max_eq_left, max_eq_right, h1, h2] <;>
      apply le_antisymm <;> simp only [le_max_iff, max_le_iff] <;>
      first
      | (refine ⟨⟨⟨?_, ?_⟩, ?_⟩, ?_⟩ <;> linarith)
      | (left; left; left; linarith)
      | (left; left; right; linarith)
      | (left; right; linarith)
      | (right; linarith)
  simp only [Box.corners, List.map_cons, List.map_nil, extent, List.foldl_cons, List.foldl_nil, Box.add, Aff.act, key, key']

/-- the image of a box lies in the extent of the transformed corners -/
theorem box_image (m : Aff K) (b : Box K) (p : K × K) (h : InBox b p) : InBox (extent (b.corners.map m.act)) (m.act p) := by
  rw [extent_corners]
  obtain ⟨h1, h2, h3, h4⟩ := h
  have a := mul_between m.a _ _ _ h1 h2
  have b := mul_between m.b _ _ _ h3 h4
  have c := mul_between m.c _ _ _ h1 h2
  have d := mul_between m.d _ _ _ h3 h4
  exact ⟨by simp only [Aff.act]; linarith [a.1, b.1], by simp only [Aff.act]; linarith [a.2, b.2],
    by simp only [Aff.act]; linarith [c.1, d.1], by simp only [Aff.act]; linarith [c.2, d.2]⟩

/-- `a * x` runs over the interval between the values at the ends -/
theorem mul_onto (a l h y : K) (ha : a ≠ 0) (hlh : l ≤ h) (h1 : min (a * l) (a * h) ≤ y) (h2 : y ≤ max (a * l) (a * h)) :
    l ≤ y / a ∧ y / a ≤ h := by
  rcases lt_or_gt_of_ne ha with ha | ha
  · have hle : a * h ≤ a * l := mul_le_mul_of_nonpos_left hlh ha.le
    rw [min_eq_right hle] at h1; rw [max_eq_left hle] at h2
    constructor
    · rw [le_div_iff_of_neg ha]; linarith
    · rw [div_le_iff_of_neg ha]; linarith
  · have hle : a * l ≤ a * h := mul_le_mul_of_nonneg_left hlh ha.le
    rw [min_eq_left hle] at h1; rw [max_eq_right hle] at h2
    constructor
    · rw [le_div_iff₀ ha]; linarith
    · rw [div_le_iff₀ ha]; linarith

/-! ### C82: transforming a shape -/

/-- C82: the polygon with holes of a transformed polygon, polygon with holes or instance of a template
is the transformed polygon with holes. -/
theorem c82_polygons_partial (L : Lib K) (m : Aff K) (s : Shape K)
    (hs : ∀ b, s ≠ .rect b) (hp : ∀ l w, s ≠ .path l w) (hc : ∀ o r n, s ≠ .circle o r n) :
    (s.transform m).pwh L = (s.pwh L).map m.act ∧ (s.transform m).contour L = (s.contour L).map m.act ∧
      (s.transform m).hasHole = s.hasHole ∧ (s.transform m).isValid = s.isValid := by
  cases s with
  | rect b => exact absurd rfl (hs b)
  | path l w => exact absurd rfl (hp l w)
  | circle o r n => exact absurd rfl (hc o r n)
  | polygon pts => simp [Shape.transform, Shape.pwh, Shape.contour, Pwh.map, Shape.hasHole, Shape.isValid]
  | holes o hs => simp [Shape.transform, Shape.pwh, Shape.contour, Pwh.map, Shape.hasHole, Shape.isValid]
  | templ m0 s =>
    have hm : (m.comp m0).act = m.act ∘ m0.act := by
      funext p; exact comp_act m m0 p
    by_cases hv : s.isValid = true
    · simp [Shape.transform, Shape.pwh, Shape.contour, Pwh.map, Shape.hasHole, Shape.isValid, hv, hm]
    · simp [Shape.transform, Shape.pwh, Shape.contour, Pwh.map, Shape.hasHole, Shape.isValid, hv]
  | noTempl m0 => simp [Shape.transform, Shape.pwh, Shape.contour, Pwh.map, Shape.hasHole, Shape.isValid]

/-- C82: what the polygon with holes of a shape is: the contour, and the holes of a polygon with holes;
a shape says it has a hole exactly if there is one. -/
theorem c82_holes (L : Lib K) (s : Shape K) :
    (s.pwh L).outline = s.contour L ∧ (s.hasHole = true ↔ (s.pwh L).holes ≠ []) ∧
      (∀ o hs, s = .holes o hs → s.pwh L = ⟨o, hs⟩) := by
  refine ⟨?_, ?_, ?_⟩
  · induction s with
    | templ m s ih =>
      by_cases hv : s.isValid = true
      · simp [Shape.pwh, Shape.contour, Pwh.map, hv, ih]
      · simp [Shape.pwh, Shape.contour, hv]
    | _ => simp [Shape.pwh, Shape.contour]
  · induction s with
    | templ m s ih =>
      by_cases hv : s.isValid = true
      · simp [Shape.pwh, Shape.hasHole, Pwh.map, hv, ih]
      · simp [Shape.pwh, Shape.hasHole, hv]
    | _ => simp [Shape.pwh, Shape.hasHole]
  · rintro o hs rfl; rfl

/-- C82: a rectangle that is shifted, scaled, mirrored at the axes or turned by quarter turns covers the
image of the points it covered.  Missing: other turns (`c82_rect_refuted`). -/
theorem c82_rect_partial (b : Box K) (hb : b.lo.1 ≤ b.hi.1 ∧ b.lo.2 ≤ b.hi.2) (m : Aff K) (hm : m.Axial) (hd : m.det ≠ 0) :
    ∃ b', (Shape.rect b).transform m = .rect b' ∧ b'.lo.1 ≤ b'.hi.1 ∧ b'.lo.2 ≤ b'.hi.2 ∧ IsImage m (InBox b) (InBox b') := by
  refine ⟨_, rfl, ?_, ?_, ?_⟩
  · rw [extent_corners]
    exact add_le_add (add_le_add min_le_max min_le_max) le_rfl
  · rw [extent_corners]
    exact add_le_add (add_le_add min_le_max min_le_max) le_rfl
  · intro q
    constructor
    · intro hq
      rw [extent_corners] at hq
      obtain ⟨q1, q2, q3, q4⟩ := hq
      rcases hm with ⟨h1, h2⟩ | ⟨h1, h2⟩
      · rw [Aff.det, h1, zero_mul, sub_zero] at hd
        have ha := left_ne_zero_of_mul hd
        have hdd := right_ne_zero_of_mul hd
        simp only [h1, h2, zero_mul, min_self, max_self, zero_add, add_zero] at q1 q2 q3 q4
        have hx := mul_onto m.a b.lo.1 b.hi.1 (q.1 - m.tx) ha hb.1 (by linarith) (by linarith)
        have hy := mul_onto m.d b.lo.2 b.hi.2 (q.2 - m.ty) hdd hb.2 (by linarith) (by linarith)
        refine ⟨((q.1 - m.tx) / m.a, (q.2 - m.ty) / m.d), ⟨hx.1, hx.2, hy.1, hy.2⟩, ?_⟩
        simp only [Aff.act, h1, h2, zero_mul, zero_add, add_zero, mul_div_cancel₀ _ ha, mul_div_cancel₀ _ hdd]
        ext <;> simp
      · rw [Aff.det, h1, zero_mul, zero_sub, neg_ne_zero] at hd
        have hbb := left_ne_zero_of_mul hd
        have hc := right_ne_zero_of_mul hd
        simp only [h1, h2, zero_mul, min_self, max_self, zero_add, add_zero] at q1 q2 q3 q4
        have hx := mul_onto m.c b.lo.1 b.hi.1 (q.2 - m.ty) hc hb.1 (by linarith) (by linarith)
        have hy := mul_onto m.b b.lo.2 b.hi.2 (q.1 - m.tx) hbb hb.2 (by linarith) (by linarith)
        refine ⟨((q.2 - m.ty) / m.c, (q.1 - m.tx) / m.b), ⟨hx.1, hx.2, hy.1, hy.2⟩, ?_⟩
        simp only [Aff.act, h1, h2, zero_mul, zero_add, add_zero, mul_div_cancel₀ _ hc, mul_div_cancel₀ _ hbb]
        ext <;> simp
    · rintro ⟨p, hp, rfl⟩
      exact box_image m b p hp

/-- a box is covered by the image whatever the transform -/
theorem c82_rect_covers (b : Box K) (m : Aff K) (p : K × K) (hp : InBox b p) :
    ∃ b', (Shape.rect b).transform m = .rect b' ∧ InBox b' (m.act p) := ⟨_, rfl, box_image m b p hp⟩

/-- equal sums of bounded parts have equal parts -/
theorem parts_eq {x y X Y : K} (hx : x ≤ X) (hy : y ≤ Y) (h : x + y = X + Y) : x = X ∧ y = Y :=
  ⟨by linarith, by linarith⟩

/-- Full statement of C82 for rectangles, false: a rectangle with an inside that is turned by anything
but quarter turns (or sheared) becomes its bounding box, which contains points that are not images of
points of the rectangle. -/
theorem c82_rect_refuted (b : Box K) (hb : b.lo.1 < b.hi.1 ∧ b.lo.2 < b.hi.2) (m : Aff K) (hm : ¬ m.Axial) (hd : m.det ≠ 0) :
    ∃ b', (Shape.rect b).transform m = .rect b' ∧ ¬ IsImage m (InBox b) (InBox b') := by
  refine ⟨_, rfl, ?_⟩
  intro him
  have hmm : ∀ a l h : K, l < h → min (a * l) (a * h) = max (a * l) (a * h) → a = 0 := by
    intro a l h hlh e
    have : a * l = a * h := by
      rcases le_total (a * l) (a * h) with h1 | h1
      · rwa [min_eq_left h1, max_eq_right h1] at e
      · rw [min_eq_right h1, max_eq_left h1] at e; exact e.symm
    by_contra h0
    exact hlh.ne (mul_left_cancel₀ h0 this)
  have hinj : ∀ a x y : K, a ≠ 0 → a * x = a * y → x = y := fun a x y ha e => mul_left_cancel₀ ha e
  -- images of the points with largest first coordinate / second coordinate
  have hrow : (m.a ≠ 0 ∧ m.b ≠ 0) ∨ (m.c ≠ 0 ∧ m.d ≠ 0) := by
    by_contra hcon
    push Not at hcon
    apply hm
    by_cases ha : m.a = 0
    · by_cases hdd : m.d = 0
      · exact Or.inr ⟨ha, hdd⟩
      · by_cases hc : m.c = 0
        · exact absurd (by simp [Aff.det, ha, hc]) hd
        · exact absurd (hcon.2 hc) hdd
    · refine Or.inl ⟨hcon.1 ha, ?_⟩
      by_contra hc
      have := hcon.2 hc
      exact hd (by simp [Aff.det, this, hcon.1 ha])
  rw [extent_corners] at him
  set X := max (m.a * b.lo.1) (m.a * b.hi.1) + max (m.b * b.lo.2) (m.b * b.hi.2) + m.tx with hX
  set x := min (m.a * b.lo.1) (m.a * b.hi.1) + min (m.b * b.lo.2) (m.b * b.hi.2) + m.tx with hx
  set Y := max (m.c * b.lo.1) (m.c * b.hi.1) + max (m.d * b.lo.2) (m.d * b.hi.2) + m.ty with hY
  set y := min (m.c * b.lo.1) (m.c * b.hi.1) + min (m.d * b.lo.2) (m.d * b.hi.2) + m.ty with hy
  have hxX : x ≤ X := add_le_add (add_le_add min_le_max min_le_max) le_rfl
  have hyY : y ≤ Y := add_le_add (add_le_add min_le_max min_le_max) le_rfl
  rcases hrow with ⟨ha, hbb⟩ | ⟨hc, hdd⟩
  · obtain ⟨p, hp, e⟩ := (him (X, Y)).1 ⟨hxX, le_rfl, hyY, le_rfl⟩
    obtain ⟨q, hq, f⟩ := (him (X, y)).1 ⟨hxX, le_rfl, le_rfl, hyY⟩
    simp only [Aff.act, Prod.mk.injEq] at e f
    obtain ⟨p1, p2, p3, p4⟩ := hp
    obtain ⟨q1, q2, q3, q4⟩ := hq
    have e1 := parts_eq (mul_between m.a _ _ _ p1 p2).2 (mul_between m.b _ _ _ p3 p4).2 (by linarith [e.1])
    have f1 := parts_eq (mul_between m.a _ _ _ q1 q2).2 (mul_between m.b _ _ _ q3 q4).2 (by linarith [f.1])
    have g1 := hinj m.a p.1 q.1 ha (e1.1.trans f1.1.symm)
    have g2 := hinj m.b p.2 q.2 hbb (e1.2.trans f1.2.symm)
    have hYy : Y = y := by rw [← e.2, ← f.2, g1, g2]
    have k := parts_eq (min_le_max (a := m.c * b.lo.1) (b := m.c * b.hi.1)) (min_le_max (a := m.d * b.lo.2) (b := m.d * b.hi.2))
      (by linarith)
    exact hd (by simp [Aff.det, hmm _ _ _ hb.1 k.1, hmm _ _ _ hb.2 k.2])
  · obtain ⟨p, hp, e⟩ := (him (X, Y)).1 ⟨hxX, le_rfl, hyY, le_rfl⟩
    obtain ⟨q, hq, f⟩ := (him (x, Y)).1 ⟨le_rfl, hxX, hyY, le_rfl⟩
    simp only [Aff.act, Prod.mk.injEq] at e f
    obtain ⟨p1, p2, p3, p4⟩ := hp
    obtain ⟨q1, q2, q3, q4⟩ := hq
    have e1 := parts_eq (mul_between m.c _ _ _ p1 p2).2 (mul_between m.d _ _ _ p3 p4).2 (by linarith [e.2])
    have f1 := parts_eq (mul_between m.c _ _ _ q1 q2).2 (mul_between m.d _ _ _ q3 q4).2 (by linarith [f.2])
    have g1 := hinj m.c p.1 q.1 hc (e1.1.trans f1.1.symm)
    have g2 := hinj m.d p.2 q.2 hdd (e1.2.trans f1.2.symm)
    have hXx : X = x := by rw [← e.1, ← f.1, g1, g2]
    have k := parts_eq (min_le_max (a := m.a * b.lo.1) (b := m.a * b.hi.1)) (min_le_max (a := m.b * b.lo.2) (b := m.b * b.hi.2))
      (by linarith)
    exact hd (by simp [Aff.det, hmm _ _ _ hb.1 k.1, hmm _ _ _ hb.2 k.2])

/-- C82: a circle that is shifted, turned or mirrored covers the image of the disc it covered.
Missing: scaling (`c82_circle_refuted`). -/
theorem c82_circle_partial (o : K × K) (r : K) (n : Nat) (m : Aff K) (hm : m.Isometry) :
    ∃ o', (Shape.circle o r n).transform m = .circle o' r n ∧ IsImage m (InDisc o r) (InDisc o' r) := by
  obtain ⟨h1, h2, h3⟩ := hm
  refine ⟨_, rfl, ?_⟩
  have hiso : ∀ p : K × K, ((m.act p).1 - (m.act o).1) ^ 2 + ((m.act p).2 - (m.act o).2) ^ 2 = (p.1 - o.1) ^ 2 + (p.2 - o.2) ^ 2 := by
    intro p
    simp only [Aff.act]
    linear_combination (p.1 - o.1) ^ 2 * h1 + (p.2 - o.2) ^ 2 * h2 + 2 * (p.1 - o.1) * (p.2 - o.2) * h3
  -- the inverse is the transposed matrix
  have h4 : m.det ^ 2 = 1 := by
    have : m.det ^ 2 = (m.a ^ 2 + m.c ^ 2) * (m.b ^ 2 + m.d ^ 2) - (m.a * m.b + m.c * m.d) ^ 2 := by
      simp only [Aff.det]; ring
    rw [this, h1, h2, h3]; ring
  have hd : m.det ≠ 0 := by
    intro h; rw [h] at h4; norm_num at h4
  intro q
  constructor
  · intro hq
    refine ⟨((m.d * (q.1 - m.tx) - m.b * (q.2 - m.ty)) / m.det, (m.a * (q.2 - m.ty) - m.c * (q.1 - m.tx)) / m.det), ?_, ?_⟩
    · have := hiso ((m.d * (q.1 - m.tx) - m.b * (q.2 - m.ty)) / m.det, (m.a * (q.2 - m.ty) - m.c * (q.1 - m.tx)) / m.det)
      have hq' : m.act ((m.d * (q.1 - m.tx) - m.b * (q.2 - m.ty)) / m.det, (m.a * (q.2 - m.ty) - m.c * (q.1 - m.tx)) / m.det) = q := by
        simp only [Aff.act]
        ext <;> simp only <;> field_simp <;> simp only [Aff.det] <;> ring
      rw [hq'] at this
      unfold InDisc at hq ⊢
      rw [← this]; exact hq
    · simp only [Aff.act]
      ext <;> simp only <;> field_simp <;> simp only [Aff.det] <;> ring
  · rintro ⟨p, hp, rfl⟩
    unfold InDisc at hp ⊢
    rw [hiso]; exact hp

/-- Full statement of C82 for circles, false: a circle that is scaled keeps its radius. -/
theorem c82_circle_refuted (o : K × K) (r k : K) (n : Nat) (hr : 0 < r) (hk : 0 < k) (hk1 : k ≠ 1) (tx ty : K) :
    ∃ o', (Shape.circle o r n).transform ⟨k, 0, 0, k, tx, ty⟩ = .circle o' r n ∧
      ¬ IsImage ⟨k, 0, 0, k, tx, ty⟩ (InDisc o r) (InDisc o' r) := by
  refine ⟨_, rfl, ?_⟩
  intro him
  rcases lt_or_gt_of_ne hk1 with h | h
  · -- the disc reaches further than the image
    obtain ⟨p, hp, e⟩ := (him ((Aff.act ⟨k, 0, 0, k, tx, ty⟩ o).1 + r, (Aff.act ⟨k, 0, 0, k, tx, ty⟩ o).2)).1
      (by simp only [InDisc]; nlinarith)
    simp only [Aff.act, Prod.mk.injEq, zero_mul, add_zero, zero_add] at e
    unfold InDisc at hp
    have e1 : k * (p.1 - o.1) = r := by linarith [e.1]
    have h5 : r < p.1 - o.1 := by
      by_contra hle
      push Not at hle
      nlinarith
    nlinarith [sq_nonneg (p.2 - o.2)]
  · have := (him (Aff.act ⟨k, 0, 0, k, tx, ty⟩ (o.1 + r, o.2))).2 ⟨_, by simp [InDisc], rfl⟩
    simp only [InDisc, Aff.act, zero_mul, add_zero, zero_add] at this
    have e1 : k * (o.1 + r) + tx - (k * o.1 + tx) = k * r := by ring
    rw [e1] at this
    nlinarith [mul_pos hk hr, mul_lt_mul_of_pos_right h hr]

/-- what is assumed of the outline of a polyline with a width: a similarity of ratio `k` maps the outline
to the outline of the image with `k` times the width -/
def Lib.StrokeOK (L : Lib K) : Prop :=
  ∀ (m : Aff K) (k : K) (pts : List (K × K)) (w : K), 0 < k →
    m.a ^ 2 + m.c ^ 2 = k ^ 2 → m.b ^ 2 + m.d ^ 2 = k ^ 2 → m.a * m.b + m.c * m.d = 0 →
    L.stroke (pts.map m.act) (k * w) = (L.stroke pts w).map m.act

/-- C82: the outline of a path that is shifted, turned or mirrored is the transformed outline.  A path
that is scaled keeps its width: its outline is the image of the outline of a path of width `w / k`. -/
theorem c82_path_partial (L : Lib K) (hL : L.StrokeOK) (pts : List (K × K)) (w k : K) (hk : 0 < k) (m : Aff K)
    (h1 : m.a ^ 2 + m.c ^ 2 = k ^ 2) (h2 : m.b ^ 2 + m.d ^ 2 = k ^ 2) (h3 : m.a * m.b + m.c * m.d = 0) :
    ((Shape.path pts w).transform m).contour L = ((Shape.path pts (w / k)).contour L).map m.act ∧
    (k = 1 → ((Shape.path pts w).transform m).contour L = ((Shape.path pts w).contour L).map m.act) := by
  have h : ((Shape.path pts w).transform m).contour L = ((Shape.path pts (w / k)).contour L).map m.act := by
    simp only [Shape.transform, Shape.contour]
    rw [← hL m k pts (w / k) hk h1 h2 h3, mul_div_cancel₀ _ hk.ne']
  refine ⟨h, ?_⟩
  rintro rfl
  rw [h, div_one]

/-! ### C83: bounding boxes -/

/-- what is assumed of inscribed polygons: their points lie in the disc -/
def Lib.InscribedOK (L : Lib K) : Prop := ∀ o r n, 0 < r → ∀ p ∈ L.inscribed o r n, InDisc o r p

theorem abs_le_of_disc {x y r : K} (hr : 0 < r) (h : x ^ 2 + y ^ 2 ≤ r ^ 2) : -r ≤ x ∧ x ≤ r := by
  constructor <;> nlinarith [sq_nonneg y]

/-- C83: the bounding box of a valid shape contains every point of its outline. -/
theorem c83_contains (L : Lib K) (hL : L.InscribedOK) (s : Shape K) (hv : s.isValid = true) :
    ∀ p ∈ s.contour L, InBox (s.bbox L) p := by
  induction s with
  | rect b =>
    simp only [Shape.isValid, Bool.and_eq_true, decide_eq_true_eq] at hv
    intro p hp
    simp only [Shape.contour, Box.corners, List.mem_cons, List.not_mem_nil, or_false] at hp
    simp only [Shape.bbox]
    rcases hp with rfl | rfl | rfl | rfl <;> simp [InBox, hv.1, hv.2]
  | path pts w => exact fun p hp => extent_mem _ p hp
  | circle o r n =>
    simp only [Shape.isValid, Bool.and_eq_true, decide_eq_true_eq] at hv
    intro p hp
    have h := hL o r n hv.1 p hp
    have h1 := abs_le_of_disc hv.1 h
    unfold InDisc at h; rw [add_comm] at h
    have h2 := abs_le_of_disc hv.1 h
    simp only [Shape.bbox, InBox]
    exact ⟨by linarith [h1.1], by linarith [h1.2], by linarith [h2.1], by linarith [h2.2]⟩
  | polygon pts => exact fun p hp => extent_mem _ p hp
  | holes o hs => exact fun p hp => extent_mem _ p hp
  | templ m s ih =>
    have hv' : s.isValid = true := hv
    intro p hp
    simp only [Shape.contour, hv', Bool.not_true, Bool.false_eq_true, if_false, List.mem_map] at hp
    obtain ⟨q, hq, rfl⟩ := hp
    simp only [Shape.bbox, hv', Bool.not_true, Bool.false_eq_true, if_false]
    exact box_image m _ _ (ih hv' q hq)
  | noTempl m => simp [Shape.isValid] at hv

/-- the box `b` lies in every box that contains the points `ps` -/
def Tight (b : Box K) (ps : List (K × K)) : Prop :=
  ∀ c : Box K, (∀ p ∈ ps, InBox c p) → c.lo.1 ≤ b.lo.1 ∧ c.lo.2 ≤ b.lo.2 ∧ b.hi.1 ≤ c.hi.1 ∧ b.hi.2 ≤ c.hi.2

/-- shapes whose bounding box is the least one: everything but circles, and template instances only when
they are placed along the axes -/
def Shape.Plain : Shape K → Prop
  | .circle _ _ _ => False
  | .templ m s => (m.Axial ∧ m.det ≠ 0) ∧ s.Plain
  | _ => True

/-- the image of the least box around some points under an axial map is the least box around their images -/
theorem tight_axial_pred (m : Aff K) (hm : m.Axial) (hd : m.det ≠ 0) (b : Box K) (hb : b.lo.1 ≤ b.hi.1 ∧ b.lo.2 ≤ b.hi.2)
    (A : K × K → Prop) (h : ∀ c : Box K, (∀ p, A p → InBox c p) → c.lo.1 ≤ b.lo.1 ∧ c.lo.2 ≤ b.lo.2 ∧ b.hi.1 ≤ c.hi.1 ∧ b.hi.2 ≤ c.hi.2)
    (c : Box K) (hc : ∀ p, A p → InBox c (m.act p)) :
    c.lo.1 ≤ (extent (b.corners.map m.act)).lo.1 ∧ c.lo.2 ≤ (extent (b.corners.map m.act)).lo.2 ∧
      (extent (b.corners.map m.act)).hi.1 ≤ c.hi.1 ∧ (extent (b.corners.map m.act)).hi.2 ≤ c.hi.2 := by
  -- the preimage of `c` is a box containing `ps`
  have pre : ∀ (α l h : K), α ≠ 0 → ∃ L H : K, (∀ x, l ≤ α * x ∧ α * x ≤ h → L ≤ x ∧ x ≤ H) ∧
      ∀ u v : K, u ≤ v → L ≤ u → v ≤ H → l ≤ min (α * u) (α * v) ∧ max (α * u) (α * v) ≤ h := by
    intro α l h hα
    rcases lt_or_gt_of_ne hα with ha | ha
    · refine ⟨h / α, l / α, fun x hx => ⟨?_, ?_⟩, fun u v huv hu hv => ?_⟩
      · rw [div_le_iff_of_neg ha]; linarith [hx.2]
      · rw [le_div_iff_of_neg ha]; linarith [hx.1]
      · rw [div_le_iff_of_neg ha] at hu
        rw [le_div_iff_of_neg ha] at hv
        have hle : α * v ≤ α * u := mul_le_mul_of_nonpos_left huv ha.le
        rw [min_eq_right hle, max_eq_left hle]
        constructor <;> linarith
    · refine ⟨l / α, h / α, fun x hx => ⟨?_, ?_⟩, fun u v huv hu hv => ?_⟩
      · rw [div_le_iff₀ ha]; linarith [hx.1]
      · rw [le_div_iff₀ ha]; linarith [hx.2]
      · rw [div_le_iff₀ ha] at hu
        rw [le_div_iff₀ ha] at hv
        have hle : α * u ≤ α * v := mul_le_mul_of_nonneg_left huv ha.le
        rw [min_eq_left hle, max_eq_right hle]
        constructor <;> linarith
  rw [extent_corners]
  rcases hm with ⟨h1, h2⟩ | ⟨h1, h2⟩
  · rw [Aff.det, h1, zero_mul, sub_zero] at hd
    obtain ⟨Lx, Hx, px, px'⟩ := pre m.a (c.lo.1 - m.tx) (c.hi.1 - m.tx) (left_ne_zero_of_mul hd)
    obtain ⟨Ly, Hy, py, py'⟩ := pre m.d (c.lo.2 - m.ty) (c.hi.2 - m.ty) (right_ne_zero_of_mul hd)
    have := h ⟨(Lx, Ly), (Hx, Hy)⟩ (by
      intro p hp
      obtain ⟨c1, c2, c3, c4⟩ := hc p hp
      simp only [Aff.act, h1, h2, zero_mul, add_zero, zero_add] at c1 c2 c3 c4
      have x := px p.1 ⟨by linarith, by linarith⟩
      have y := py p.2 ⟨by linarith, by linarith⟩
      exact ⟨x.1, x.2, y.1, y.2⟩)
    have x := px' _ _ hb.1 this.1 this.2.2.1
    have y := py' _ _ hb.2 this.2.1 this.2.2.2
    simp only [h1, h2, zero_mul, min_self, max_self, add_zero, zero_add]
    exact ⟨by linarith [x.1], by linarith [y.1], by linarith [x.2], by linarith [y.2]⟩
  · rw [Aff.det, h1, zero_mul, zero_sub, neg_ne_zero] at hd
    obtain ⟨Lx, Hx, px, px'⟩ := pre m.c (c.lo.2 - m.ty) (c.hi.2 - m.ty) (right_ne_zero_of_mul hd)
    obtain ⟨Ly, Hy, py, py'⟩ := pre m.b (c.lo.1 - m.tx) (c.hi.1 - m.tx) (left_ne_zero_of_mul hd)
    have := h ⟨(Lx, Ly), (Hx, Hy)⟩ (by
      intro p hp
      obtain ⟨c1, c2, c3, c4⟩ := hc p hp
      simp only [Aff.act, h1, h2, zero_mul, add_zero, zero_add] at c1 c2 c3 c4
      have x := px p.1 ⟨by linarith, by linarith⟩
      have y := py p.2 ⟨by linarith, by linarith⟩
      exact ⟨x.1, x.2, y.1, y.2⟩)
    have x := px' _ _ hb.1 this.1 this.2.2.1
    have y := py' _ _ hb.2 this.2.1 this.2.2.2
    simp only [h1, h2, zero_mul, min_self, max_self, add_zero, zero_add]
    exact ⟨by linarith [y.1], by linarith [x.1], by linarith [y.2], by linarith [x.2]⟩

/-- the image of a tight box under an axial map is tight -/
theorem tight_axial (m : Aff K) (hm : m.Axial) (hd : m.det ≠ 0) (b : Box K) (hb : b.lo.1 ≤ b.hi.1 ∧ b.lo.2 ≤ b.hi.2)
    (ps : List (K × K)) (h : Tight b ps) : Tight (extent (b.corners.map m.act)) (ps.map m.act) :=
  fun c hc => tight_axial_pred m hm hd b hb (· ∈ ps) h c fun _ hp => hc _ (List.mem_map_of_mem hp)

/-- C83: the bounding box of a valid shape is the least box containing its outline, unless the shape is a
circle (whose box is that of the true circle, not of the polygon drawn for it) or a template instance that
is not placed along the axes (`c83_turned_refuted`). -/
theorem c83_least_partial (L : Lib K) (hL : L.InscribedOK) (s : Shape K) (hp : s.Plain) (hv : s.isValid = true)
    (hne : s.contour L ≠ []) : Tight (s.bbox L) (s.contour L) := by
  induction s with
  | rect b =>
    intro c h
    have h1 := h b.lo (by simp [Shape.contour, Box.corners])
    have h2 := h b.hi (by simp [Shape.contour, Box.corners])
    exact ⟨h1.1, h1.2.2.1, h2.2.1, h2.2.2.2⟩
  | path pts w => exact fun c h => extent_least _ hne c h
  | circle o r n => exact absurd hp (by simp [Shape.Plain])
  | polygon pts => exact fun c h => extent_least _ hne c h
  | holes o hs => exact fun c h => extent_least _ hne c h
  | templ m s ih =>
    have hv' : s.isValid = true := hv
    simp only [Shape.contour, hv', Bool.not_true, Bool.false_eq_true, if_false, ne_eq, List.map_eq_nil_iff] at hne
    simp only [Shape.bbox, Shape.contour, hv', Bool.not_true, Bool.false_eq_true, if_false]
    refine tight_axial m hp.1.1 hp.1.2 _ ?_ _ (ih hp.2 hv' hne)
    obtain ⟨q, hq⟩ := List.exists_mem_of_ne_nil _ hne
    obtain ⟨q1, q2, q3, q4⟩ := c83_contains L hL s hv' q hq
    exact ⟨q1.trans q2, q3.trans q4⟩
  | noTempl m => simp [Shape.isValid] at hv

/-- Full statement of C83, false: the box of a template instance that is turned is larger than needed.
Any diamond and any turn (with scaling) that is not a multiple of a quarter turn. -/
theorem c83_turned_refuted (L : Lib K) (r s t : K) (hr : 0 < r) (hs : 0 < s) (ht : 0 < t) :
    ¬ Tight ((Shape.templ ⟨s, -t, t, s, 0, 0⟩ (.polygon [(r, 0), (0, r), (-r, 0), (0, -r)])).bbox L)
      ((Shape.templ ⟨s, -t, t, s, 0, 0⟩ (.polygon [(r, 0), (0, r), (-r, 0), (0, -r)])).contour L) := by
  intro h
  have hm : max s t < s + t := max_lt (by linarith) (by linarith)
  have h1 : s ≤ max s t := le_max_left _ _
  have h2 : t ≤ max s t := le_max_right _ _
  set M := max s t with hM
  have := h ⟨(-(r * M), -(r * M)), (r * M, r * M)⟩ (by
    intro p hp
    simp only [Shape.contour, Shape.isValid, List.length_cons, List.length_nil, List.map_cons, List.map_nil, Aff.act] at hp
    norm_num at hp
    have a1 : s * r ≤ r * M := by nlinarith
    have a2 : t * r ≤ r * M := by nlinarith
    have a3 : 0 < s * r := mul_pos hs hr
    have a4 : 0 < t * r := mul_pos ht hr
    rcases hp with rfl | rfl | rfl | rfl <;> simp only [InBox] <;> refine ⟨?_, ?_, ?_, ?_⟩ <;> linarith)
  have h4 := this.2.2.2
  have hbox : extent [(r, (0 : K)), (0, r), (-r, 0), (0, -r)] = ⟨(-r, -r), (r, r)⟩ := by
    simp only [extent, List.foldl_cons, List.foldl_nil, Box.add, Box.mk.injEq, Prod.mk.injEq]
    have n1 : -r ≤ 0 := by linarith
    refine ⟨⟨?_, ?_⟩, ?_, ?_⟩ <;> simp [hr.le, n1]
    all_goals linarith
  simp only [Shape.bbox, Shape.isValid, List.length_cons, List.length_nil] at h4
  norm_num at h4
  rw [hbox, extent_corners] at h4
  simp only at h4
  have e1 : max (t * -r) (t * r) = t * r := max_eq_right (by nlinarith)
  have e2 : max (s * -r) (s * r) = s * r := max_eq_right (by nlinarith)
  rw [e1, e2] at h4
  nlinarith

end

/-! ### examples -/

/-- the hypotheses of `c82_rect_partial` and `c82_rect_refuted` can be met: a quarter turn, and a turn by
the angle with cosine 3/5 -/
example : (⟨0, -1, 1, 0, 3, 4⟩ : Aff ℚ).Axial ∧ (⟨0, -1, 1, 0, 3, 4⟩ : Aff ℚ).det ≠ 0 ∧
    ¬ (⟨3/5, -4/5, 4/5, 3/5, 0, 0⟩ : Aff ℚ).Axial ∧ (⟨3/5, -4/5, 4/5, 3/5, 0, 0⟩ : Aff ℚ).det ≠ 0 ∧
    (⟨3/5, -4/5, 4/5, 3/5, 0, 0⟩ : Aff ℚ).Isometry := by
  refine ⟨Or.inr ⟨rfl, rfl⟩, ?_, ?_, ?_, ?_⟩
  · norm_num [Aff.det]
  · norm_num [Aff.Axial]
  · norm_num [Aff.det]
  · norm_num [Aff.Isometry]

/-- a quarter turn of a rectangle, and the bounding box a turned rectangle becomes -/
example : (Shape.rect (⟨(0, 0), (2, 1)⟩ : Box ℚ)).transform ⟨0, -1, 1, 0, 3, 4⟩ = .rect ⟨(2, 4), (3, 6)⟩ ∧
    (Shape.rect (⟨(0, 0), (5, 5)⟩ : Box ℚ)).transform ⟨3/5, -4/5, 4/5, 3/5, 0, 0⟩ = .rect ⟨(-4, 0), (3, 7)⟩ := by
  decide +kernel

/-- a library for which the assumptions hold: inscribed squares, and outlines that are the polylines
themselves -/
def exLib : Lib ℚ := ⟨fun o r _ => [(o.1 + r, o.2), (o.1, o.2 + r), (o.1 - r, o.2), (o.1, o.2 - r)], fun l _ => l⟩

example : exLib.StrokeOK ∧ exLib.InscribedOK := by
  refine ⟨fun _ _ _ _ _ _ _ _ => rfl, ?_⟩
  intro o r n _ p hp
  simp only [exLib, List.mem_cons, List.not_mem_nil, or_false] at hp
  rcases hp with rfl | rfl | rfl | rfl <;> simp [InDisc]

/-- a template with a hole, placed, and its box -/
example : (Shape.templ (⟨0, -1, 1, 0, 3, 4⟩ : Aff ℚ) (.holes [(0, 0), (4, 0), (4, 2)] [[(1, 0), (2, 0), (2, 1)]])).Plain ∧
    (Shape.templ (⟨0, -1, 1, 0, 3, 4⟩ : Aff ℚ) (.holes [(0, 0), (4, 0), (4, 2)] [[(1, 0), (2, 0), (2, 1)]])).bbox exLib = ⟨(1, 4), (3, 8)⟩ := by
  refine ⟨⟨⟨Or.inr ⟨rfl, rfl⟩, by norm_num [Aff.det]⟩, trivial⟩, by decide +kernel⟩

end Ecad.Shp
