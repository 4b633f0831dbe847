import Mathlib.Tactic.Linarith
import Mathlib.Tactic.Ring
import Mathlib.Tactic.FieldSimp
import Mathlib.Tactic.NormNum
import Mathlib.Tactic.FinCases
import Mathlib.Tactic.IntervalCases
import Verif.Thermal.PrismGeoModel
import Verif.Thermal.PrismNetProps
/-!
C115: with the geometry of a proper mesh every resistance of a prism network is positive; the path to a side is the distance to it;
between neighbours the network resists at least as much as the two parts in series.
-/
namespace Ecad.PrismT
open Ecad.Thermal Ecad.GridT

/-! ### specification -/

/-- the points of the line through `a` and `b` -/
def lineAt (a b : ℝ × ℝ) (s : ℝ) : ℝ × ℝ := (a.1 + s * (b.1 - a.1), a.2 + s * (b.2 - a.2))

/-- the length of a way in the plane -/
noncomputable def wayLen (a b : ℝ × ℝ) : ℝ := √((a.1 - b.1) ^ 2 + (a.2 - b.2) ^ 2)

/-- the ways `a b` and `c d` are at a right angle -/
def Perp (a b c d : ℝ × ℝ) : Prop := (b.1 - a.1) * (d.1 - c.1) + (b.2 - a.2) * (d.2 - c.2) = 0

/-- A proper mesh: triangles are counterclockwise and not degenerate, and neighbours run through their common side in opposite
directions. -/
structure Geo.Proper (g : Geo) (mesh : Mesh) : Prop where
  scaleH : 0 < g.scaleH
  scale : 0 < g.scale
  thick : ∀ l, 0 < g.thickness l
  ccw : ∀ t, t < mesh.length →
    0 < ((g.pts (g.verts t 1)).1 - (g.pts (g.verts t 0)).1) * ((g.pts (g.verts t 2)).2 - (g.pts (g.verts t 0)).2) -
      ((g.pts (g.verts t 1)).2 - (g.pts (g.verts t 0)).2) * ((g.pts (g.verts t 2)).1 - (g.pts (g.verts t 0)).1)
  side : ∀ t n t', nbOf mesh t n = some t' → ∃ n', nbOf mesh t' n' = some t ∧
    g.verts t' n' = g.verts t (n + 1) ∧ g.verts t' (n' + 1) = g.verts t n

/-! ### plane geometry -/

theorem distSq_nonneg (a b : ℝ × ℝ) : 0 ≤ distSq a b := by unfold distSq; positivity

theorem distSq_comm (a b : ℝ × ℝ) : distSq a b = distSq b a := by unfold distSq; ring

/-- the identity of Lagrange -/
theorem lagrange (a b c d : ℝ × ℝ) :
    ((b.1 - a.1) * (d.2 - c.2) - (b.2 - a.2) * (d.1 - c.1)) ^ 2 + ((b.1 - a.1) * (d.1 - c.1) + (b.2 - a.2) * (d.2 - c.2)) ^ 2 =
      distSq a b * distSq c d := by unfold distSq; ring

theorem distSq_pos_of_cross {a b c : ℝ × ℝ} (h : cross a b c ≠ 0) : 0 < distSq a b := by
  rcases (distSq_nonneg a b).lt_or_eq with hp | hz
  · exact hp
  · exfalso
    apply h
    unfold distSq at hz
    have h1 : b.1 - a.1 = 0 := by nlinarith [sq_nonneg (b.1 - a.1), sq_nonneg (b.2 - a.2)]
    have h2 : b.2 - a.2 = 0 := by nlinarith [sq_nonneg (b.1 - a.1), sq_nonneg (b.2 - a.2)]
    unfold cross
    rw [h1, h2]; ring

theorem sqrt_pointLine {a b c : ℝ × ℝ} : √(pointLineDistSq c a b) = |cross a b c| / √(distSq a b) := by
  unfold pointLineDistSq
  rw [Real.sqrt_div (sq_nonneg _), Real.sqrt_sq_eq_abs]

/-- the square root of `PointLineDistanceSq` is the least distance to the points of the line -/
theorem pointLine_least {a b c : ℝ × ℝ} (h : 0 < distSq a b) :
    IsLeast {d | ∃ s, d = wayLen c (lineAt a b s)} √(pointLineDistSq c a b) := by
  have key : ∀ s, (c.1 - (lineAt a b s).1) ^ 2 + (c.2 - (lineAt a b s).2) ^ 2 =
      pointLineDistSq c a b + (s * distSq a b - ((b.1 - a.1) * (c.1 - a.1) + (b.2 - a.2) * (c.2 - a.2))) ^ 2 / distSq a b := by
    intro s
    unfold pointLineDistSq
    rw [← add_div, eq_div_iff h.ne']
    unfold lineAt cross distSq
    ring
  constructor
  · refine ⟨((b.1 - a.1) * (c.1 - a.1) + (b.2 - a.2) * (c.2 - a.2)) / distSq a b, ?_⟩
    unfold wayLen
    rw [key, div_mul_cancel₀ _ h.ne', sub_self]
    congr 1
    ring
  · rintro d ⟨s, rfl⟩
    unfold wayLen
    rw [key]
    apply Real.sqrt_le_sqrt
    have := div_nonneg (sq_nonneg (s * distSq a b - ((b.1 - a.1) * (c.1 - a.1) + (b.2 - a.2) * (c.2 - a.2)))) h.le
    linarith

/-- the centroid makes a third of the triangle with every side -/
theorem cross_center (g : Geo) (t : Nat) (e : Fin 3) :
    cross (g.vertex t e) (g.vertex t (e + 1)) (g.center t) = cross (g.vertex t 0) (g.vertex t 1) (g.vertex t 2) / 3 := by
  fin_cases e
  · show cross (g.vertex t 0) (g.vertex t 1) (g.center t) = _
    unfold cross Geo.center; ring
  · show cross (g.vertex t 1) (g.vertex t 2) (g.center t) = _
    unfold cross Geo.center; ring
  · show cross (g.vertex t 2) (g.vertex t 0) (g.center t) = _
    unfold cross Geo.center; ring

theorem cross_vertex (g : Geo) (t : Nat) : cross (g.vertex t 0) (g.vertex t 1) (g.vertex t 2) =
    (((((g.pts (g.verts t 1)).1 - (g.pts (g.verts t 0)).1) * ((g.pts (g.verts t 2)).2 - (g.pts (g.verts t 0)).2) -
      ((g.pts (g.verts t 1)).2 - (g.pts (g.verts t 0)).2) * ((g.pts (g.verts t 2)).1 - (g.pts (g.verts t 0)).1) : ℤ)) : ℝ) * g.scaleH ^ 2 := by
  unfold cross Geo.vertex
  push_cast
  ring

variable {g : Geo} {mesh : Mesh}

theorem Geo.Proper.cross_pos (hp : g.Proper mesh) {t : Nat} (ht : t < mesh.length) :
    0 < cross (g.vertex t 0) (g.vertex t 1) (g.vertex t 2) := by
  rw [cross_vertex]
  have h1 := hp.ccw t ht
  have h2 := hp.scaleH
  exact mul_pos (by exact_mod_cast h1) (by positivity)

theorem Geo.Proper.edgeSq_pos (hp : g.Proper mesh) {t : Nat} (ht : t < mesh.length) (e : Fin 3) :
    0 < distSq (g.vertex t e) (g.vertex t (e + 1)) := by
  apply distSq_pos_of_cross (c := g.center t)
  rw [cross_center]
  have := hp.cross_pos ht
  positivity

theorem Geo.Proper.edgeLen_pos (hp : g.Proper mesh) {t : Nat} (ht : t < mesh.length) (e : Fin 3) : 0 < g.edgeLen t e :=
  mul_pos (Real.sqrt_pos.2 (hp.edgeSq_pos ht e)) hp.scale

theorem Geo.Proper.area_pos (hp : g.Proper mesh) {t : Nat} (ht : t < mesh.length) : 0 < g.area t := by
  have h1 := hp.cross_pos ht
  have h2 := hp.scale
  unfold Geo.area
  rw [abs_of_pos h1]
  positivity

/-- **C115, paths.** What the builder takes for the way from the centre of a prism to a side is the least distance to the
points of the line of the side, in metres. -/
theorem c115_path (hp : g.Proper mesh) {t : Nat} (ht : t < mesh.length) (e : Fin 3) :
    IsLeast {d | ∃ s, d = wayLen (g.center t) (lineAt (g.vertex t e) (g.vertex t (e + 1)) s) * g.scale} (g.toSide t e) := by
  obtain ⟨⟨s, hs⟩, h2⟩ := pointLine_least (c := g.center t) (hp.edgeSq_pos ht e)
  constructor
  · exact ⟨s, by unfold Geo.toSide; rw [hs]⟩
  · rintro d ⟨s, rfl⟩
    exact mul_le_mul_of_nonneg_right (h2 ⟨s, rfl⟩) hp.scale.le

/-- **C115, areas.** A side and the way to it from the centre make a third of the area of the prism. -/
theorem c115_third (hp : g.Proper mesh) {t : Nat} (ht : t < mesh.length) (e : Fin 3) :
    g.toSide t e * g.edgeLen t e / 2 = g.area t / 3 := by
  have h1 := hp.cross_pos ht
  have h2 : 0 < √(distSq (g.vertex t e) (g.vertex t (e + 1))) := Real.sqrt_pos.2 (hp.edgeSq_pos ht e)
  unfold Geo.toSide Geo.edgeLen Geo.area
  rw [sqrt_pointLine, cross_center, abs_of_pos h1, abs_of_pos (by positivity)]
  field_simp

theorem Geo.Proper.toSide_pos (hp : g.Proper mesh) {t : Nat} (ht : t < mesh.length) (e : Fin 3) : 0 < g.toSide t e := by
  have h1 := c115_third hp ht e
  have h2 := hp.area_pos ht
  have h3 := hp.edgeLen_pos ht e
  by_contra hn
  have : g.toSide t e * g.edgeLen t e ≤ 0 := mul_nonpos_of_nonpos_of_nonneg (not_lt.1 hn) h3.le
  linarith

theorem nbOf_lt {mesh : Mesh} {t : Nat} {n : Fin 3} {t' : Nat} (h : nbOf mesh t n = some t') : t < mesh.length := by
  unfold nbOf at h
  rw [Option.bind_eq_some_iff] at h
  obtain ⟨f, hf, _⟩ := h
  exact (List.getElem?_eq_some_iff.1 hf).1

/-- neighbours have their common side in common -/
theorem side_vertex {t t' : Nat} {n n' : Fin 3} (h1 : g.verts t' n' = g.verts t (n + 1)) (h2 : g.verts t' (n' + 1) = g.verts t n) :
    g.vertex t' n' = g.vertex t (n + 1) ∧ g.vertex t' (n' + 1) = g.vertex t n := by
  unfold Geo.vertex
  rw [h1, h2]
  exact ⟨rfl, rfl⟩

/-- the sum of the two ways to the common side, and the way between the centres -/
theorem ways (hp : g.Proper mesh) {t t' : Nat} (ht : t < mesh.length) (ht' : t' < mesh.length) {n n' : Fin 3}
    (h1 : g.verts t' n' = g.verts t (n + 1)) (h2 : g.verts t' (n' + 1) = g.verts t n) :
    g.edgeLen t n = g.edgeLen t' n' ∧ g.toSide t n + g.toSide t' n' ≤ g.dist t t' ∧
    (g.dist t t' = g.toSide t n + g.toSide t' n' ↔ Perp (g.vertex t n) (g.vertex t (n + 1)) (g.center t) (g.center t')) := by
  obtain ⟨v1, v2⟩ := side_vertex h1 h2
  have hL := hp.edgeSq_pos ht n
  have c1 := hp.cross_pos ht
  have c2 := hp.cross_pos ht'
  have x1 := cross_center g t n
  have x2 := cross_center g t' n'
  rw [v1, v2] at x2
  have hLs : 0 < √(distSq (g.vertex t n) (g.vertex t (n + 1))) := Real.sqrt_pos.2 hL
  have hs := hp.scale
  have hto : g.toSide t n + g.toSide t' n' =
      (cross (g.vertex t 0) (g.vertex t 1) (g.vertex t 2) / 3 + cross (g.vertex t' 0) (g.vertex t' 1) (g.vertex t' 2) / 3) /
        √(distSq (g.vertex t n) (g.vertex t (n + 1))) * g.scale := by
    unfold Geo.toSide
    rw [sqrt_pointLine, sqrt_pointLine, cross_center, cross_center, v1, v2, distSq_comm (g.vertex t (n + 1)),
      abs_of_pos (by positivity), abs_of_pos (by positivity)]
    ring
  have hx := lagrange (g.vertex t n) (g.vertex t (n + 1)) (g.center t) (g.center t')
  have hsum : (((g.vertex t (n + 1)).1 - (g.vertex t n).1) * ((g.center t').2 - (g.center t).2) -
      ((g.vertex t (n + 1)).2 - (g.vertex t n).2) * ((g.center t').1 - (g.center t).1)) =
      -(cross (g.vertex t 0) (g.vertex t 1) (g.vertex t 2) / 3 + cross (g.vertex t' 0) (g.vertex t' 1) (g.vertex t' 2) / 3) := by
    rw [← x1, ← x2]
    unfold cross
    ring
  rw [hsum] at hx
  have hS : 0 < cross (g.vertex t 0) (g.vertex t 1) (g.vertex t 2) / 3 + cross (g.vertex t' 0) (g.vertex t' 1) (g.vertex t' 2) / 3 := by
    positivity
  rw [hto]
  unfold Geo.dist Perp
  generalize cross (g.vertex t 0) (g.vertex t 1) (g.vertex t 2) / 3 + cross (g.vertex t' 0) (g.vertex t' 1) (g.vertex t' 2) / 3 = S at *
  generalize ((g.vertex t (n + 1)).1 - (g.vertex t n).1) * ((g.center t').1 - (g.center t).1) +
    ((g.vertex t (n + 1)).2 - (g.vertex t n).2) * ((g.center t').2 - (g.center t).2) = P at *
  have hD := distSq_nonneg (g.center t) (g.center t')
  refine ⟨?_, ?_, ?_⟩
  · unfold Geo.edgeLen
    rw [v1, v2, distSq_comm]
  · apply mul_le_mul_of_nonneg_right _ hs.le
    rw [div_le_iff₀ hLs, ← Real.sqrt_mul hD]
    apply Real.le_sqrt_of_sq_le
    nlinarith [sq_nonneg P]
  · rw [mul_left_inj' hs.ne', eq_div_iff hLs.ne', ← Real.sqrt_mul hD, Real.sqrt_eq_iff_mul_self_eq_of_pos hS]
    constructor
    · intro h
      have : P ^ 2 = 0 := by nlinarith
      exact pow_eq_zero_iff (two_ne_zero) |>.1 this
    · intro h
      rw [h] at hx
      nlinarith

theorem cross_rot (g : Geo) (t : Nat) (e : Fin 3) :
    cross (g.vertex t e) (g.vertex t (e + 1)) (g.vertex t (e + 1 + 1)) = cross (g.vertex t 0) (g.vertex t 1) (g.vertex t 2) := by
  fin_cases e
  · rfl
  · show cross (g.vertex t 1) (g.vertex t 2) (g.vertex t 0) = _
    unfold cross; ring
  · show cross (g.vertex t 2) (g.vertex t 0) (g.vertex t 1) = _
    unfold cross; ring

theorem Geo.Proper.verts_ne (hp : g.Proper mesh) {t : Nat} (ht : t < mesh.length) (e : Fin 3) : g.verts t e ≠ g.verts t (e + 1) := by
  intro h
  have h1 := hp.edgeSq_pos ht e
  have : g.vertex t e = g.vertex t (e + 1) := by unfold Geo.vertex; rw [h]
  rw [this] at h1
  unfold distSq at h1
  simp at h1

theorem Geo.Proper.verts_inj (hp : g.Proper mesh) {t : Nat} (ht : t < mesh.length) {e f : Fin 3} (h : g.verts t e = g.verts t f) : e = f := by
  have h0 := hp.verts_ne ht 0
  have h1 := hp.verts_ne ht 1
  have h2 := hp.verts_ne ht 2
  rw [show (0 : Fin 3) + 1 = 1 from rfl] at h0
  rw [show (1 : Fin 3) + 1 = 2 from rfl] at h1
  rw [show (2 : Fin 3) + 1 = 0 from rfl] at h2
  match e, f, h with
  | 0, 0, _ => rfl
  | 1, 1, _ => rfl
  | 2, 2, _ => rfl
  | 0, 1, h => exact absurd h h0
  | 1, 0, h => exact absurd h.symm h0
  | 1, 2, h => exact absurd h h1
  | 2, 1, h => exact absurd h.symm h1
  | 2, 0, h => exact absurd h h2
  | 0, 2, h => exact absurd h.symm h2

/-- two triangles of a proper mesh meet in one side at most -/
theorem Geo.Proper.one_side (hp : g.Proper mesh) {t t' : Nat} {a b : Fin 3} (ha : nbOf mesh t a = some t') (hb : nbOf mesh t b = some t') : a = b := by
  have key : ∀ a, nbOf mesh t a = some t' → nbOf mesh t (a + 1) = some t' → False := by
    intro a ha hb
    obtain ⟨a', na, a1, a2⟩ := hp.side _ _ _ ha
    obtain ⟨b', nb, b1, b2⟩ := hp.side _ _ _ hb
    have e : b' + 1 = a' := hp.verts_inj (nbOf_lt na) (by rw [b2, a1])
    subst e
    have h1 := hp.cross_pos (nbOf_lt na)
    have h2 := hp.cross_pos (nbOf_lt ha)
    rw [← cross_rot g t' b'] at h1
    rw [← cross_rot g t a] at h2
    have v1 : g.vertex t' b' = g.vertex t (a + 1 + 1) := by unfold Geo.vertex; rw [b1]
    have v2 : g.vertex t' (b' + 1) = g.vertex t (a + 1) := by unfold Geo.vertex; rw [b2]
    have v3 : g.vertex t' (b' + 1 + 1) = g.vertex t a := by unfold Geo.vertex; rw [a2]
    rw [v1, v2, v3] at h1
    unfold cross at h1 h2
    linarith
  match a, b, ha, hb with
  | 0, 0, _, _ => rfl
  | 1, 1, _, _ => rfl
  | 2, 2, _, _ => rfl
  | 0, 1, ha, hb => exact (key 0 ha hb).elim
  | 1, 0, ha, hb => exact (key 0 hb ha).elim
  | 1, 2, ha, hb => exact (key 1 ha hb).elim
  | 2, 1, ha, hb => exact (key 1 hb ha).elim
  | 2, 0, ha, hb => exact (key 2 ha hb).elim
  | 0, 2, ha, hb => exact (key 2 hb ha).elim

/-! ### resistances -/

/-- the mean conductivity in the plane -/
noncomputable def kPlane (m : PModel ℝ) (p : Prism ℝ) (T : ℝ) : ℝ := (m.k p.elem.cell.mat T 0 + m.k p.elem.cell.mat T 1) / 2

/-- **C115, two prisms.** Between neighbours of a layer the resistance is positive, and at least that of the two ways to the common side in series;
it is the same as these exactly if the line between the centres is at right angles to the side, and it is the same from either side exactly if it
is at right angles or the conductivities are the same. -/
theorem c115_side (hp : g.Proper mesh) (m : PModel ℝ) {p q : Prism ℝ} {n : Fin 3} (h : nbOf mesh p.elem.tri n = some q.elem.tri)
    (hl : q.layer = p.layer) {T T' : ℝ} (hk : 0 < kPlane m p T) (hk' : 0 < kPlane m q T') :
    ∃ n', nbOf mesh q.elem.tri n' = some p.elem.tri ∧
      0 < g.toSide p.elem.tri n / kPlane m p T / (g.height p.layer * g.edgeLen p.elem.tri n) +
        g.toSide q.elem.tri n' / kPlane m q T' / (g.height q.layer * g.edgeLen q.elem.tri n') ∧
      g.toSide p.elem.tri n / kPlane m p T / (g.height p.layer * g.edgeLen p.elem.tri n) +
        g.toSide q.elem.tri n' / kPlane m q T' / (g.height q.layer * g.edgeLen q.elem.tri n') ≤ (g.model m).sideR p q n T T' ∧
      ((g.model m).sideR p q n T T' = g.toSide p.elem.tri n / kPlane m p T / (g.height p.layer * g.edgeLen p.elem.tri n) +
          g.toSide q.elem.tri n' / kPlane m q T' / (g.height q.layer * g.edgeLen q.elem.tri n') ↔
        Perp (g.vertex p.elem.tri n) (g.vertex p.elem.tri (n + 1)) (g.center p.elem.tri) (g.center q.elem.tri)) ∧
      ((g.model m).sideR p q n T T' = (g.model m).sideR q p n' T' T ↔
        Perp (g.vertex p.elem.tri n) (g.vertex p.elem.tri (n + 1)) (g.center p.elem.tri) (g.center q.elem.tri) ∨ kPlane m p T = kPlane m q T') := by
  obtain ⟨n', hn', v1, v2⟩ := hp.side _ _ _ h
  obtain ⟨he, hle, hiff⟩ := ways hp (nbOf_lt h) (nbOf_lt hn') v1 v2
  have hA : 0 < g.height p.layer * g.edgeLen p.elem.tri n :=
    mul_pos (mul_pos (hp.thick _) hp.scale) (hp.edgeLen_pos (nbOf_lt h) n)
  have h1 := hp.toSide_pos (nbOf_lt h) n
  have h2 := hp.toSide_pos (nbOf_lt hn') n'
  have hD : g.dist q.elem.tri p.elem.tri = g.dist p.elem.tri q.elem.tri := by unfold Geo.dist; rw [distSq_comm]
  have hR : (g.model m).sideR p q n T T' = g.toSide p.elem.tri n / kPlane m p T / (g.height p.layer * g.edgeLen p.elem.tri n) +
      (g.dist p.elem.tri q.elem.tri - g.toSide p.elem.tri n) / kPlane m q T' / (g.height p.layer * g.edgeLen p.elem.tri n) := by
    unfold PModel.sideR kPlane Geo.model
    simp only [one_div_mul_eq_div]
  have hR' : (g.model m).sideR q p n' T' T = g.toSide q.elem.tri n' / kPlane m q T' / (g.height p.layer * g.edgeLen p.elem.tri n) +
      (g.dist p.elem.tri q.elem.tri - g.toSide q.elem.tri n') / kPlane m p T / (g.height p.layer * g.edgeLen p.elem.tri n) := by
    unfold PModel.sideR kPlane Geo.model
    simp only [one_div_mul_eq_div, hD, hl, ← he]
  refine ⟨n', hn', ?_⟩
  rw [hl, ← he, hR, hR', ← hiff]
  generalize g.height p.layer * g.edgeLen p.elem.tri n = A at *
  generalize kPlane m p T = k at *
  generalize kPlane m q T' = k' at *
  generalize g.dist p.elem.tri q.elem.tri = D at *
  generalize g.toSide p.elem.tri n = d at *
  generalize g.toSide q.elem.tri n' = d' at *
  refine ⟨by positivity, ?_, ?_, ?_⟩
  · have : d' / k' / A ≤ (D - d) / k' / A := by
      apply div_le_div_of_nonneg_right _ hA.le
      apply div_le_div_of_nonneg_right _ hk'.le
      linarith
    linarith
  · rw [add_right_inj, div_left_inj' hA.ne', div_left_inj' hk'.ne', sub_eq_iff_eq_add, add_comm]
  · have key : d / k / A + (D - d) / k' / A - (d' / k' / A + (D - d') / k / A) = (D - (d + d')) * (k - k') / (k * k' * A) := by
      field_simp
      ring
    rw [← sub_eq_zero, key, div_eq_zero_iff, mul_eq_zero, sub_eq_zero, sub_eq_zero]
    constructor
    · rintro (h | h)
      · exact h
      · exact absurd h (by positivity)
    · exact .inl

/-- **C115, units.** Areas grow with the square of the unit, volumes with its cube, and resistances with its inverse. -/
theorem c115_units (g : Geo) (m : PModel ℝ) (hs : g.scale ≠ 0) (p q : Prism ℝ) (n : Fin 3) (T T' : ℝ) :
    g.area p.elem.tri = (Geo.area { g with scale := 1 } p.elem.tri) * g.scale ^ 2 ∧
    g.area p.elem.tri * g.height p.layer = (Geo.area { g with scale := 1 } p.elem.tri) * (Geo.height { g with scale := 1 } p.layer) * g.scale ^ 3 ∧
    (g.model m).sideR p q n T T' = ((Geo.model { g with scale := 1 } m).sideR p q n T T') / g.scale ∧
    (g.model m).vertR p q T T' = ((Geo.model { g with scale := 1 } m).vertR p q T T') / g.scale := by
  have hv : ∀ t v, Geo.vertex { g with scale := 1 } t v = g.vertex t v := fun _ _ => rfl
  have hc : ∀ t, Geo.center { g with scale := 1 } t = g.center t := fun _ => rfl
  refine ⟨?_, ?_, ?_, ?_⟩
  · unfold Geo.area
    simp only [hv]
    ring
  · unfold Geo.area Geo.height
    simp only [hv]
    ring
  · unfold PModel.sideR Geo.model Geo.toSide Geo.dist Geo.edgeLen Geo.height
    simp only [hv, hc]
    generalize m.k p.elem.cell.mat T 0 + m.k p.elem.cell.mat T 1 = k
    generalize m.k q.elem.cell.mat T' 0 + m.k q.elem.cell.mat T' 1 = k'
    generalize √(distSq (g.vertex p.elem.tri n) (g.vertex p.elem.tri (n + 1))) = L
    generalize √(pointLineDistSq (g.center p.elem.tri) (g.vertex p.elem.tri n) (g.vertex p.elem.tri (n + 1))) = d
    generalize √(distSq (g.center p.elem.tri) (g.center q.elem.tri)) = D
    generalize g.thickness p.layer = h
    generalize g.scale = s at *
    have e1 : ∀ x K : ℝ, x * s / K / (h * s * (L * s)) = x / K / (h * L) / s := by
      intro x K
      rw [show h * s * (L * s) = h * L * s * s by ring]
      rw [div_div, div_div, div_div, show K * (h * L * s * s) = K * (h * L * s) * s by ring, mul_div_mul_right _ _ hs]
    rw [← sub_mul, e1, e1]
    simp only [mul_one]
    rw [add_div]
  · unfold PModel.vertR Geo.model Geo.area Geo.height
    simp only [hv, mul_one, one_pow]
    generalize |cross (g.vertex p.elem.tri 0) (g.vertex p.elem.tri 1) (g.vertex p.elem.tri 2)| / 2 = A
    generalize g.scale = s at *
    rw [show 1 / 2 * (g.thickness p.layer * s) / m.k p.elem.cell.mat T 2 + 1 / 2 * (g.thickness q.layer * s) / m.k q.elem.cell.mat T' 2 =
      (1 / 2 * g.thickness p.layer / m.k p.elem.cell.mat T 2 + 1 / 2 * g.thickness q.layer / m.k q.elem.cell.mat T' 2) * s by ring,
      show A * s ^ 2 = A * s * s by ring, mul_div_mul_right _ _ hs, div_div]

/-- **C115, layers.** The resistance between the prisms of a triangle in two layers is positive. -/
theorem c115_layers (hp : g.Proper mesh) (m : PModel ℝ) {p q : Prism ℝ} (ht : p.elem.tri < mesh.length) {T T' : ℝ}
    (hk : 0 < m.k p.elem.cell.mat T 2) (hk' : 0 < m.k q.elem.cell.mat T' 2) : 0 < (g.model m).vertR p q T T' := by
  unfold PModel.vertR Geo.model
  simp only
  have h1 : 0 < g.height p.layer := mul_pos (hp.thick _) hp.scale
  have h2 : 0 < g.height q.layer := mul_pos (hp.thick _) hp.scale
  have h3 := hp.area_pos ht
  positivity

/-- **C115, network.** Neighbours `t < t'` of a layer are connected in the network by the resistance over their one common side: the conductance is positive
and at most that of the ways to the side in series, and where no resistance is cut off at `minR`, it is that exactly if the line between the
centres is at right angles to the side. -/
theorem c115_network (hp : g.Proper mesh) {minR : ℝ} {m : PModel ℝ} {layers : Nat} {info : Nat → Nat → Option (Cell ℝ)} {wires : List (Wire ℝ)}
    (hx : Extracted (g.model m) mesh layers info wires) {iniT : List ℝ} {net : Network ℝ} (hb : (g.model m).build minR iniT = .ok (some net))
    {l t t' : Nat} {c c' : Cell ℝ} {T T' : ℝ} {n : Fin 3} (hn : nbOf mesh t n = some t') (hlt : t < t')
    (hc : cellAt mesh.length layers info l t = some c) (hc' : cellAt mesh.length layers info l t' = some c')
    (hT : iniT[gid mesh.length layers info l t]? = some T) (hT' : iniT[gid mesh.length layers info l t']? = some T')
    (hk : 0 < (m.k c.mat T 0 + m.k c.mat T 1) / 2) (hk' : 0 < (m.k c'.mat T' 0 + m.k c'.mat T' 1) / 2) :
    ∃ n' R, nbOf mesh t' n' = some t ∧
      R = g.toSide t n / ((m.k c.mat T 0 + m.k c.mat T 1) / 2) / (g.height l * g.edgeLen t n) +
        g.toSide t' n' / ((m.k c'.mat T' 0 + m.k c'.mat T' 1) / 2) / (g.height l * g.edgeLen t' n') ∧ 0 < R ∧
      0 < conductance net (gid mesh.length layers info l t) (gid mesh.length layers info l t') ∧
      conductance net (gid mesh.length layers info l t) (gid mesh.length layers info l t') ≤ 1 / max R minR ∧
      (minR ≤ R → (conductance net (gid mesh.length layers info l t) (gid mesh.length layers info l t') = 1 / R ↔
        Perp (g.vertex t n) (g.vertex t (n + 1)) (g.center t) (g.center t'))) := by
  obtain ⟨h1, h2, h3, h4⟩ := extracted_prisms hx
  have wf := (extracted_wf hx).1
  have hgid : gid mesh.length layers info l t < gid mesh.length layers info l t' := by
    unfold gid
    have := rank_lt (cellAt mesh.length layers info l) hlt (by rw [hc]; rfl)
    omega
  obtain ⟨n', hn', hpos, hle, hperp, _⟩ := c115_side hp m (p := prismAt mesh layers info l t c) (q := prismAt mesh layers info l t' c') (n := n) hn rfl
    (T := T) (T' := T') hk hk'
  refine ⟨n', _, hn', rfl, hpos, ?_⟩
  have hedge : ∀ a, (prismAt mesh layers info l t c).edge a = some (gid mesh.length layers info l t') ↔ a = n := by
    intro a
    constructor
    · intro he
      unfold prismAt at he
      simp only [Option.bind_eq_some_iff] at he
      obtain ⟨u, hu, hs⟩ := he
      unfold gslot at hs
      rw [Option.map_eq_some_iff] at hs
      obtain ⟨c2, hc2, hg⟩ := hs
      obtain ⟨_, rfl⟩ := (gid_bijective mesh.length layers info).1 _ _ _ _ _ _ hc2 hc' hg
      exact hp.one_side hu hn
    · rintro rfl
      unfold prismAt gslot
      simp only [hn, Option.bind_some, hc', Option.map_some]
  have hbot : (prismAt mesh layers info l t c).bot ≠ some (gid mesh.length layers info l t') := by
    intro he
    unfold prismAt gslot at he
    simp only [Option.map_eq_some_iff] at he
    obtain ⟨c2, hc2, hg⟩ := he
    have := ((gid_bijective mesh.length layers info).1 _ _ _ _ _ _ hc2 hc' hg).1
    omega
  have htop : (prismAt mesh layers info l t c).top ≠ some (gid mesh.length layers info l t') := by
    intro he
    unfold prismAt at he
    simp only at he
    cases l with
    | zero => cases he
    | succ k =>
      have he' : gslot mesh.length layers info k t = some (gid mesh.length layers info (k + 1) t') := he
      unfold gslot at he'
      rw [Option.map_eq_some_iff] at he'
      obtain ⟨c2, hc2, hg⟩ := he'
      have := ((gid_bijective mesh.length layers info).1 _ _ _ _ _ _ hc2 hc' hg).1
      omega
  have hcond : conductance net (gid mesh.length layers info l t) (gid mesh.length layers info l t') =
      1 / max ((g.model m).sideR (prismAt mesh layers info l t c) (prismAt mesh layers info l t' c') n T T') minR := by
    rw [conductance_links hb wf (h3 l t c hc) hT (h3 l t' c' hc') hT' hgid, if_neg htop, if_neg hbot]
    simp only [hedge]
    match n with
    | 0 => simp
    | 1 => simp
    | 2 => simp
  rw [hcond]
  have hR := lt_of_lt_of_le hpos hle
  refine ⟨?_, ?_, ?_⟩
  · exact one_div_pos.2 (lt_max_of_lt_left hR)
  · exact one_div_le_one_div_of_le (lt_max_of_lt_left hpos) (max_le_max_right _ hle)
  · intro hm
    rw [max_eq_left (le_trans hm hle)]
    refine Iff.trans ?_ hperp
    exact ⟨fun e => by rw [one_div, one_div] at e; exact inv_injective e, fun e => congrArg (fun x => 1 / x) e⟩

/-! ### an example -/

def exVerts : Nat → Fin 3 → Nat
  | 0, v => v.val
  | _ + 1, 0 => 0
  | _ + 1, 1 => 3
  | _ + 1, 2 => 1

def exPts : Nat → ℤ × ℤ
  | 0 => (0, 0)
  | 1 => (6, 0)
  | 2 => (0, 6)
  | _ + 3 => (6, -6)

/-- two triangles with the side from (0, 0) to (6, 0) in common, in micrometres -/
noncomputable def exGeo : Geo :=
  { pts := exPts, verts := exVerts,
    scaleH := 1, scale := 1 / 1000000, thickness := fun _ => 10 }

theorem exGeo_proper : exGeo.Proper exMesh := by
  refine ⟨by norm_num [exGeo], by norm_num [exGeo], fun _ => by norm_num [exGeo], ?_, ?_⟩
  · intro t ht
    have ht : t < 2 := ht
    interval_cases t
    · show (0 : ℤ) < (6 - 0) * (6 - 0) - (0 - 0) * (0 - 0); decide
    · show (0 : ℤ) < (6 - 0) * (0 - 0) - (-6 - 0) * (6 - 0); decide
  · intro t n t' h
    unfold nbOf exMesh at h
    match t, h with
    | 0, h =>
      simp at h
      obtain ⟨rfl, rfl⟩ := h
      exact ⟨2, rfl, rfl, rfl⟩
    | 1, h =>
      simp at h
      obtain ⟨rfl, rfl⟩ := h
      exact ⟨0, rfl, rfl, rfl⟩
    | t + 2, h => simp at h

example : exGeo.toSide 0 0 * exGeo.edgeLen 0 0 / 2 = exGeo.area 0 / 3 := c115_third exGeo_proper (by decide) 0

/-- copper on the left and something else on the right -/
def exGeoInfo (_ t : Nat) : Option (Cell ℝ) := some ⟨t, none⟩

/-- the prisms of one layer -/
noncomputable def exGeoModel : PModel ℝ :=
  { off := [0, 2], prisms := [prismAt exMesh 1 exGeoInfo 0 0 ⟨0, none⟩, prismAt exMesh 1 exGeoInfo 0 1 ⟨1, none⟩], lines := [],
    area := fun _ => 0, edgeLen := fun _ _ => 0, toSide := fun _ _ => 0, dist := fun _ _ => 0, height := fun _ => 0,
    k := fun mat _ _ => if mat = 0 then 400 else 1, heat := fun _ _ => 1, rho := fun _ _ => 1, resist := fun _ _ => 2,
    topBC := none, botBC := none, topBlocks := [], botBlocks := [] }

theorem exGeoModel_extracted : Extracted (exGeo.model exGeoModel) exMesh 1 exGeoInfo [] := by
  refine ⟨?_, rfl, by simp⟩
  obtain ⟨off, ps, he, h1, h2, h3⟩ := buildPrisms_eq exMesh 1 exGeoInfo
  rw [he]
  have hoff : off = [0, 2] := by
    rw [extract_eq, Res.bind_ok] at he
    unfold buildPrisms at he
    simp only at he
    generalize mapRes (makePrism _ _) _ = x at he
    cases x with
    | ok x =>
      rw [Res.bind_ok] at he
      simp only [Res.ok.injEq, Prod.mk.injEq] at he
      rw [← he.1]
      rfl
    | ub => simp at he
    | exn => simp at he
  have hps : ps = exGeoModel.prisms := by
    apply List.ext_getElem?
    intro i
    match i with
    | 0 => exact h3 0 0 ⟨0, none⟩ rfl
    | 1 => exact h3 0 1 ⟨1, none⟩ rfl
    | i + 2 =>
      have h2' : ps.length = 2 := h2
      rw [List.getElem?_eq_none (by omega), List.getElem?_eq_none (by show 2 ≤ i + 2; omega)]
  rw [hoff, hps]
  rfl

/-- in the example the line between the centres is oblique: the resistance depends on the numbering, and is more than that of the ways in series -/
example {T T' : ℝ} : (exGeo.model exGeoModel).sideR (prismAt exMesh 1 exGeoInfo 0 0 ⟨0, none⟩) (prismAt exMesh 1 exGeoInfo 0 1 ⟨1, none⟩) 0 T T' ≠
    (exGeo.model exGeoModel).sideR (prismAt exMesh 1 exGeoInfo 0 1 ⟨1, none⟩) (prismAt exMesh 1 exGeoInfo 0 0 ⟨0, none⟩) 2 T' T := by
  obtain ⟨n', hn', _, _, _, h⟩ := c115_side exGeo_proper exGeoModel (p := prismAt exMesh 1 exGeoInfo 0 0 ⟨0, none⟩) (q := prismAt exMesh 1 exGeoInfo 0 1 ⟨1, none⟩)
    (n := 0) rfl rfl (T := T) (T' := T') (by norm_num [kPlane, exGeoModel, prismAt, elemAt]) (by norm_num [kPlane, exGeoModel, prismAt, elemAt])
  have : n' = 2 := exGeo_proper.one_side hn' rfl
  subst this
  intro he
  rcases h.1 he with h | h
  · have v00 : exGeo.vertex 0 0 = (((0 : ℤ) : ℝ) * 1, ((0 : ℤ) : ℝ) * 1) := rfl
    have v01 : exGeo.vertex 0 1 = (((6 : ℤ) : ℝ) * 1, ((0 : ℤ) : ℝ) * 1) := rfl
    have v02 : exGeo.vertex 0 2 = (((0 : ℤ) : ℝ) * 1, ((6 : ℤ) : ℝ) * 1) := rfl
    have v10 : exGeo.vertex 1 0 = (((0 : ℤ) : ℝ) * 1, ((0 : ℤ) : ℝ) * 1) := rfl
    have v11 : exGeo.vertex 1 1 = (((6 : ℤ) : ℝ) * 1, ((-6 : ℤ) : ℝ) * 1) := rfl
    have v12 : exGeo.vertex 1 2 = (((6 : ℤ) : ℝ) * 1, ((0 : ℤ) : ℝ) * 1) := rfl
    change Perp (exGeo.vertex 0 0) (exGeo.vertex 0 1) (exGeo.center 0) (exGeo.center 1) at h
    norm_num [Perp, Geo.center, v00, v01, v02, v10, v11, v12] at h
  · norm_num [kPlane, exGeoModel, prismAt, elemAt] at h

example : ∃ net, (exGeo.model exGeoModel).build (1 / 1000000) [25, 25] = .ok (some net) ∧ 0 < conductance net 0 1 := by
  obtain ⟨net, hb, _⟩ := c63_builds exGeoModel_extracted (1 / 1000000) (iniT := [25, 25]) rfl
  obtain ⟨_, _, _, _, _, h, _⟩ := c115_network exGeo_proper exGeoModel_extracted hb (l := 0) (t := 0) (t' := 1) (c := ⟨0, none⟩) (c' := ⟨1, none⟩) (T := 25)
    (T' := 25) (n := 0) rfl (by decide) rfl rfl rfl rfl (by norm_num [exGeoModel]) (by norm_num [exGeoModel])
  exact ⟨net, hb, h⟩

end Ecad.PrismT
