import Verif.Xfl.ConnProps
import Verif.Shape.Props
/-!
Sizes of imported XFL shapes (C87), board outline (C90).
-/
namespace Ecad.Xfl
open Shp (Aff Shape Box extent)

variable {K : Type} [Field K] [LinearOrder K] [IsStrictOrderedRing K] (G : Getter K)

/-! ### specification -/

/-- the box a shape of the file fills, in units of the file, for those kinds whose box does not need the library -/
def geoBox : Geo K → Option (Box K)
  | .polygon pts => if pts = [] then none else some (extent pts)
  | .rectangle w h => some ⟨(-(w / 2), -(h / 2)), (w / 2, h / 2)⟩
  | .square w => some ⟨(-(w / 2), -(w / 2)), (w / 2, w / 2)⟩
  | .diamond w => some ⟨(-(w / 2), -(w / 2)), (w / 2, w / 2)⟩
  | .circle d => some ⟨(-(d / 2), -(d / 2)), (d / 2, d / 2)⟩
  | .oblong w left right => some ⟨(-left, -(w / 2)), (right, w / 2)⟩
  | _ => none

/-- a box in coordinates of the layout -/
def scaled (s : K) (b : Box K) : Box K := ⟨(b.lo.1 * s, b.lo.2 * s), (b.hi.1 * s, b.hi.2 * s)⟩

/-- the claim: the shape made fills the box of the file, scaled -/
def Sized (g : Geo K) : Prop :=
  ∀ b, geoBox g = some b → ∃ s, G.get g = .ok s ∧ s.bbox G.lib.toLib = scaled G.scale b

/-! ### proofs -/

theorem foldl_scale (s : K) (hs : 0 ≤ s) (ps : List (K × K)) (b : Box K) :
    (ps.map fun p : K × K => (p.1 * s, p.2 * s)).foldl Box.add (scaled s b) = scaled s (ps.foldl Box.add b) := by
  induction ps generalizing b with
  | nil => rfl
  | cons p ps ih =>
    simp only [List.map_cons, List.foldl_cons]
    rw [← ih]
    congr 1
    simp only [Box.add, scaled, min_mul_of_nonneg _ _ hs, max_mul_of_nonneg _ _ hs]

theorem extent_scale (s : K) (hs : 0 ≤ s) (ps : List (K × K)) (hp : ps ≠ []) :
    extent (ps.map fun p : K × K => (p.1 * s, p.2 * s)) = scaled s (extent ps) := by
  cases ps with
  | nil => exact absurd rfl hp
  | cons p ps => exact foldl_scale s hs ps ⟨p, p⟩

theorem diamond_box (h : K) (hh : 0 ≤ h) :
    extent [(h, 0), (0, h), (-h, 0), (0, -h)] = ⟨(-h, -h), (h, h)⟩ := by
  have h1 : -h ≤ 0 := by linarith
  have h2 : -h ≤ h := by linarith
  simp only [extent, List.foldl_cons, List.foldl_nil, Box.add]
  simp [hh, h1, h2]

/-- C87, partial: polygons and oblongs have their size.  Missing: rectangles (half the size,
`c87_rectangle_refuted`), squares, diamonds and circles of files that are scaled (`c87_unscaled_refuted`). -/
theorem c87_size_partial (hs : 0 ≤ G.scale) (g : Geo K) :
    (∀ pts, g = .polygon pts → Sized G g) ∧
    (∀ w l r, g = .oblong w l r → Sized G g) ∧
    (∀ w, 0 ≤ w → (g = .square w ∨ g = .diamond w ∨ g = .circle w) → G.scale = 1 → Sized G g) := by
  refine ⟨?_, ?_, ?_⟩
  · rintro pts rfl b hb
    simp only [geoBox] at hb
    split at hb
    · exact absurd hb (by simp)
    · next hp =>
      obtain rfl := Option.some.inj hb
      exact ⟨_, rfl, extent_scale G.scale hs pts hp⟩
  · rintro w l r rfl b hb
    obtain rfl := Option.some.inj hb
    refine ⟨_, rfl, ?_⟩
    simp only [Shape.bbox, scaled, Box.mk.injEq, Prod.mk.injEq]
    refine ⟨⟨trivial, ?_⟩, trivial, ?_⟩ <;> ring
  · rintro w hw (rfl | rfl | rfl) h1 b hb
    all_goals obtain rfl := Option.some.inj hb
    · refine ⟨_, rfl, ?_⟩
      simp only [Shape.bbox, scaled, h1, Box.mk.injEq, Prod.mk.injEq]
      refine ⟨⟨?_, ?_⟩, ?_, ?_⟩ <;> ring
    · refine ⟨_, rfl, ?_⟩
      simp only [Shape.bbox]
      rw [diamond_box _ (by linarith)]
      simp only [scaled, h1, Box.mk.injEq, Prod.mk.injEq]
      refine ⟨⟨?_, ?_⟩, ?_, ?_⟩ <;> ring
    · refine ⟨_, rfl, ?_⟩
      simp only [Shape.bbox, scaled, h1, Box.mk.injEq, Prod.mk.injEq]
      refine ⟨⟨?_, ?_⟩, ?_, ?_⟩ <;> ring

/-- C87, refuted: a rectangle is made with half of its width and height. -/
theorem c87_rectangle_refuted (hs : G.scale ≠ 0) (w h : K) (hw : w ≠ 0) :
    G.get (.rectangle w h) = .ok (.rect (scaled (G.scale / 2) ⟨(-(w / 2), -(h / 2)), (w / 2, h / 2)⟩)) ∧ ¬ Sized G (.rectangle w h) := by
  have e : G.get (.rectangle w h) = .ok (.rect (scaled (G.scale / 2) ⟨(-(w / 2), -(h / 2)), (w / 2, h / 2)⟩)) := by
    simp only [Getter.get, scaled, Res.ok.injEq, Shape.rect.injEq, Box.mk.injEq, Prod.mk.injEq]
    refine ⟨⟨?_, ?_⟩, ?_, ?_⟩ <;> ring
  refine ⟨e, fun hc => ?_⟩
  obtain ⟨s, h1, h2⟩ := hc _ rfl
  rw [e] at h1
  obtain rfl := Res.ok.inj h1
  simp only [Shape.bbox, scaled, Box.mk.injEq, Prod.mk.injEq] at h2
  obtain ⟨-, h3, -⟩ := h2
  have : w * G.scale = 0 := by linear_combination -4 * h3
  rcases mul_eq_zero.1 this with h | h
  · exact hw h
  · exact hs h

/-- C87, refuted: squares, diamonds and circles are not scaled. -/
theorem c87_unscaled_refuted (hs : G.scale ≠ 1) (w : K) (hw : 0 < w) :
    ¬ Sized G (.square w) ∧ ¬ Sized G (.diamond w) ∧ ¬ Sized G (.circle w) := by
  have key : w / 2 ≠ w / 2 * G.scale := by
    intro h
    apply hs
    have h2 : w / 2 ≠ 0 := by positivity
    have : w / 2 * (G.scale - 1) = 0 := by linear_combination -h
    rcases mul_eq_zero.1 this with h | h
    · exact absurd h h2
    · linear_combination h
  refine ⟨fun hc => ?_, fun hc => ?_, fun hc => ?_⟩ <;> obtain ⟨s, h1, h2⟩ := hc _ rfl <;> obtain rfl := Res.ok.inj h1
  · simp only [Shape.bbox, scaled, Box.mk.injEq, Prod.mk.injEq] at h2
    exact key (by linear_combination h2.2.1)
  · simp only [Shape.bbox] at h2
    rw [diamond_box _ (by linarith)] at h2
    simp only [scaled, Box.mk.injEq, Prod.mk.injEq] at h2
    exact key (by linear_combination h2.2.1)
  · simp only [Shape.bbox, scaled, Box.mk.injEq, Prod.mk.injEq] at h2
    exact key (by linear_combination h2.2.1)

/-! ### composites -/

/-- where an element of a composite ends -/
def Seg.last : Seg K → K × K
  | .pt p => p
  | .arc _ e _ => e

/-- what an element adds that starts where the one before it ends: its point, or the points of the arc without
the first -/
def piece (start : K × K) : Seg K → List (K × K)
  | .pt p => [(p.1 * G.scale, p.2 * G.scale)]
  | .arc t e m => ((G.lib.arc t start m e G.div).drop 1).map fun q => (q.1 * G.scale, q.2 * G.scale)

omit [IsStrictOrderedRing K] in
theorem compositeLoop_ok (p : K × K) (l : List (Seg K))
    (h : ∀ t e m, Seg.arc t e m ∈ l → (t = 0 ∨ t = 1)) (ha : ∀ t s m e, G.lib.arc t s m e G.div ≠ []) :
    G.compositeLoop p l = .ok (List.zipWith (piece G) (p :: l.map Seg.last) l).flatten := by
  induction l generalizing p with
  | nil => rfl
  | cons x l ih =>
    have ih' := fun q => ih q fun t e m hm => h t e m (List.mem_cons_of_mem _ hm)
    cases x with
    | pt q => simp only [Getter.compositeLoop, ih', Res.bind_ok]; rfl
    | arc t e m =>
      have ht := h t e m List.mem_cons_self
      have hp : G.arcPts p t e m = (G.lib.arc t p m e G.div).map G.pt := by
        rcases ht with rfl | rfl <;> simp [Getter.arcPts]
      obtain ⟨a, as, has⟩ := List.exists_cons_of_ne_nil (ha t p m e)
      simp only [Getter.compositeLoop, hp, has, List.map_cons, Getter.skipFirst, ih', Res.bind_ok]
      simp only [List.map_cons, List.zipWith_cons_cons, List.flatten_cons, piece, has, List.drop_succ_cons, List.drop_zero, Seg.last]
      rfl

omit [IsStrictOrderedRing K] in
/-- C87, partial: a composite that begins with a point becomes the polygon of this point and, element by element,
its points and those of its arcs, each from the end of the element before it.  Missing: arcs through three
points (`c87_arc3_refuted`). -/
theorem c87_composite_partial (p : K × K) (l : List (Seg K))
    (h : ∀ t e m, Seg.arc t e m ∈ l → (t = 0 ∨ t = 1)) (ha : ∀ t s m e, G.lib.arc t s m e G.div ≠ []) :
    G.get (.composite (.pt p :: l)) =
      .ok (.polygon ((p.1 * G.scale, p.2 * G.scale) :: (List.zipWith (piece G) (p :: l.map Seg.last) l).flatten)) := by
  simp only [Getter.get, Getter.composite, compositeLoop_ok G p l h ha, Res.bind_ok]
  rfl

omit [IsStrictOrderedRing K] in
/-- C87, refuted: any arc through three points is undefined behaviour. -/
theorem c87_arc3_refuted (l : List (Seg K)) (t : Int) (e m : K × K) (h : Seg.arc t e m ∈ l) (ht : t ≠ 0 ∧ t ≠ 1)
    (ha : ∀ t s m e, G.lib.arc t s m e G.div ≠ []) : G.get (.composite l) = .ub := by
  have main : ∀ (l : List (Seg K)) (p : K × K), Seg.arc t e m ∈ l → G.compositeLoop p l = .ub := by
    intro l
    induction l with
    | nil => intro p h; exact absurd h (by simp)
    | cons x l ih =>
      intro p h
      cases x with
      | pt q =>
        have : Seg.arc t e m ∈ l := by simpa using h
        simp only [Getter.compositeLoop, ih q this, Res.bind_ub]
      | arc t' e' m' =>
        simp only [Getter.compositeLoop]
        by_cases hx : t' = 0 ∨ t' = 1
        · have hmem : Seg.arc t e m ∈ l := by
            rcases List.mem_cons.1 h with h | h
            · simp only [Seg.arc.injEq] at h
              rcases hx with rfl | rfl
              · exact absurd h.1 ht.1
              · exact absurd h.1 ht.2
            · exact h
          have hp : G.arcPts p t' e' m' = (G.lib.arc t' p m' e' G.div).map G.pt := by
            rcases hx with rfl | rfl <;> simp [Getter.arcPts]
          obtain ⟨a, as, has⟩ := List.exists_cons_of_ne_nil (ha t' p m' e')
          simp only [hp, has, List.map_cons, Getter.skipFirst, Res.bind_ok, ih e' hmem, Res.bind_ub]
        · have hp : G.arcPts p t' e' m' = [] := by
            have : t' ≠ 0 ∧ t' ≠ 1 := by tauto
            simp [Getter.arcPts, this.1, this.2]
          simp only [hp, Getter.skipFirst, Res.bind_ub]
  cases l with
  | nil => exact absurd h (by simp)
  | cons x l =>
    cases x with
    | pt p =>
      have : Seg.arc t e m ∈ l := by simpa using h
      simp only [Getter.get, Getter.composite, main l p this, Res.bind_ub]
    | arc _ _ _ => rfl

/-! ### board outline -/

variable (E : Env K)

omit [IsStrictOrderedRing K] in
/-- C90, partial: without an outline nothing is set; a polygon becomes the boundary, scaled; an unknown template
changes nothing.  Missing: outlines given by a template shape (`c90_template_refuted`). -/
theorem c90_outline_partial (pts : List (K × K)) (id : Int) (loc : K × K) (rot : Int) (mir : Char) (rtm : Bool) :
    E.board none = .ok none ∧
    E.board (some (.polygon pts)) = .ok (some (pts.map fun p : K × K => (p.1 * E.G.scale, p.2 * E.G.scale))) ∧
    (∀ l, E.board (some (.composite l)) = (E.G.composite l).bind fun ps => .ok (some ps)) ∧
    (UMap.find? E.tmpl id = none → E.board (some (.shape id loc rot mir rtm)) = .ok none) := by
  refine ⟨rfl, rfl, ?_, ?_⟩
  · intro l
    simp only [Env.board, Getter.get]
    cases E.G.composite l <;> rfl
  · intro h
    simp [Env.board, h]

omit [IsStrictOrderedRing K] in
/-- C90, refuted: any outline given by a template shape that exists uses a null pointer. -/
theorem c90_template_refuted (id : Int) (s : Shape K) (h : UMap.find? E.tmpl id = some s) (loc : K × K) (rot : Int) (mir : Char) (rtm : Bool) :
    E.board (some (.shape id loc rot mir rtm)) = .ub := by
  simp [Env.board, h]

/-! ### examples -/

/-- arcs are drawn as their end points -/
def exGetter : Getter ℚ := ⟨⟨⟨fun _ _ _ => [], fun _ _ => []⟩, fun _ _ _ => [], fun _ s _ e _ => [s, e], fun _ _ _ => []⟩, 10, 4⟩

example : exGetter.get (.composite [.pt (0, 0), .pt (1, 0), .arc 1 (1, 2) (1, 1), .pt (0, 2)]) =
    .ok (.polygon [(0, 0), (10, 0), (10, 20), (0, 20)]) := by decide +kernel
example : ∀ t s m e, exGetter.lib.arc t s m e exGetter.div ≠ [] := by intro t s m e; exact List.cons_ne_nil _ _
/-- expected 40 by 20 -/
example : exGetter.get (.rectangle 4 2) = .ok (.rect ⟨(-10, -5), (10, 5)⟩) := by decide +kernel
example : exGetter.scale ≠ 0 ∧ exGetter.scale ≠ 1 ∧ 0 ≤ exGetter.scale := by decide +kernel
example : exEnv.board (some (.polygon [(0, 0), (4, 0), (4, 4)])) = .ok (some [(0, 0), (8, 0), (8, 8)]) := by decide +kernel

end Ecad.Xfl
