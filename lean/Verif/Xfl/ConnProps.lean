import Verif.Xfl.Model
import Verif.Naming.Lemmas
import Mathlib.Algebra.Order.Ring.Rat
import Mathlib.Algebra.Field.Rat
import Mathlib.Tactic.NormNum
import Mathlib.Tactic.Ring
/-!
Connection objects of imported XFL files: shapes and their voids (C86), padstack instances (C88).
-/
namespace Ecad.Xfl
open Shp (Aff Shape Box)

variable {K : Type} [Field K] [LinearOrder K] (E : Env K)

/-! ### specification -/

/-- an object that is a shape with or without the attribute void: neither path, via, bondwire nor annular -/
def Obj.isShape : Obj K → Bool
  | .path _ _ _ | .via _ _ _ _ _ _ | .bondwire | .annular _ _ _ _ => false
  | _ => true

/-- the layer of a shape object -/
def Obj.layer : Obj K → Int
  | .path l _ _ => l
  | .via l _ _ _ _ _ => l
  | .bondwire => 0
  | .annular l _ _ _ => l
  | .polygon _ l _ => l
  | .rectangle _ l _ _ _ => l
  | .square _ l _ _ => l
  | .diamond _ l _ _ => l
  | .circle _ l _ _ => l
  | .composite _ l _ => l
  | .shape _ l _ _ _ _ _ => l

/-- the outline of an object, if it has one -/
def Env.shapeOf (o : Obj K) : Option (Shape K) :=
  match E.mkShape o with
  | .ok (_, s) => s
  | _ => none

/-- `h` is a void with an outline on layer `l` -/
def Env.voidOn (l : Int) (h : Obj K) : Bool := h.isHole && h.layer = l && (E.shapeOf h).isSome

/-- `h` is a shape that is not a void on layer `l` -/
def Obj.posOn (l : Int) (h : Obj K) : Bool := h.isShape && !h.isHole && h.layer = l

/-- a shape `s` with holes cut out -/
def Env.cut (s : Shape K) (hs : List (Shape K)) : Shape K :=
  if hs = [] then s else .holes (s.contour E.G.lib.toLib) (hs.map fun h => h.contour E.G.lib.toLib)

/-- what is drawn for the first of the objects `o :: r`: a path along its points; a ring at its place; a shape
that is not a void, on the layer its number means, with the voids cut out that follow it directly on its layer;
nothing when the number means no layer or the shape is not valid -/
def Env.drawn (net : Int) (o : Obj K) (r : List (Obj K)) : List (Out K) :=
  match UMap.find? E.metal o.layer with
  | none => []
  | some l =>
    match o with
    | .path _ w p =>
      match E.G.composite p with
      | .ok ps => [.geom l net (.path ps (w * E.G.scale))]
      | _ => []
    | .annular _ outer inner loc =>
      match E.G.get (.annular outer inner) with
      | .ok s => if s.isValid then [.geom l net (s.transform (mat E.R 0 (mkPt E.G.scale loc) .no))] else []
      | _ => []
    | o =>
      if o.isShape && !o.isHole then
        match E.shapeOf o with
        | none => []
        | some s =>
          let t := E.cut s ((r.takeWhile (E.voidOn o.layer)).filterMap E.shapeOf)
          if t.isValid then [.geom l net t] else []
      else []

/-- the created shapes (not the padstack instances) -/
def geoms (os : List (Out K)) : List (Out K) := os.filter fun o => match o with
  | .geom _ _ _ => true
  | _ => false

/-- what is drawn for all objects of a route -/
def Env.drawnAll (net : Int) : List (Obj K) → List (Out K)
  | [] => []
  | o :: r => E.drawn net o r ++ Env.drawnAll net r

/-! ### the loop -/

/-- shapes report the layer they are on -/
theorem mkShape_layer (o : Obj K) (ho : o.isShape = true) (x : Int × Option (Shape K)) (h : E.mkShape o = .ok x) : x.1 = o.layer := by
  have hb : ∀ (g : Res (Shape K)) (f : Shape K → Shape K) (l : Int), (g.bind fun s => Res.ok (l, some (f s))) = .ok x → x.1 = l := by
    intro g f l hg
    cases g with
    | ok s => simp only [Res.bind_ok, Res.ok.injEq] at hg; rw [← hg]
    | ub => simp at hg
    | exn => simp at hg
  cases o with
  | path _ _ _ => simp [Obj.isShape] at ho
  | via _ _ _ _ _ _ => simp [Obj.isShape] at ho
  | bondwire => simp [Obj.isShape] at ho
  | annular _ _ _ _ => simp [Obj.isShape] at ho
  | polygon _ l _ => simp only [Env.mkShape] at h; exact hb _ id l h
  | rectangle _ l _ _ _ => simp only [Env.mkShape] at h; exact hb _ _ l h
  | square _ l _ _ => simp only [Env.mkShape] at h; exact hb _ _ l h
  | diamond _ l _ _ => simp only [Env.mkShape] at h; exact hb _ _ l h
  | circle _ l _ _ => simp only [Env.mkShape] at h; exact hb _ _ l h
  | composite _ l _ => simp only [Env.mkShape] at h; exact hb _ id l h
  | shape _ l _ _ _ _ _ =>
    simp only [Env.mkShape] at h
    split at h
    · simp only [Res.ok.injEq] at h; rw [← h]; rfl
    · split at h <;> (simp only [Res.ok.injEq] at h; rw [← h]; rfl)

omit [Field K] [LinearOrder K] in
/-- C86: the voids are the objects the file marks as such. -/
theorem c86_void_flag (o : Obj K) : o.isHole = true ↔
    (∃ l p, o = .polygon true l p) ∨ (∃ l w h p, o = .rectangle true l w h p) ∨
    (∃ l w p, o = .square true l w p) ∨ (∃ l w p, o = .diamond true l w p) ∨
    (∃ l d p, o = .circle true l d p) ∨ (∃ l p, o = .composite true l p) ∨
    (∃ l i p r m b, o = .shape true l i p r m b) := by
  cases o <;> simp [Obj.isHole]

omit [Field K] [LinearOrder K] in
theorem isShape_of_isHole (o : Obj K) (h : o.isHole = true) : o.isShape = true := by
  cases o <;> simp_all [Obj.isHole, Obj.isShape]

/-- the inner loop takes the voids that follow directly -/
theorem holes_spec (l : Int) (r : List (Obj K)) (y : List (Shape K) × List (Obj K)) (h : E.holes l r = .ok y) :
    y.1 = (r.takeWhile (E.voidOn l)).filterMap E.shapeOf ∧ y.2 = r.dropWhile (E.voidOn l) ∧
      (y.1 = [] ↔ r.takeWhile (E.voidOn l) = []) := by
  induction r generalizing y with
  | nil => simp only [Env.holes, Res.ok.injEq] at h; subst h; simp
  | cons o r ih =>
    simp only [Env.holes] at h
    by_cases hh : o.isHole = true
    · simp only [hh, Bool.not_true, Bool.false_eq_true, if_false] at h
      cases hm : E.mkShape o with
      | ub => rw [hm] at h; simp at h
      | exn => rw [hm] at h; simp at h
      | ok x =>
        rw [hm, Res.bind_ok] at h
        have hl := mkShape_layer E o (isShape_of_isHole o hh) x hm
        have hs : E.shapeOf o = x.2 := by simp [Env.shapeOf, hm]
        cases hx : x.2 with
        | none =>
          rw [hx] at h hs
          simp only [Res.ok.injEq] at h; subst h
          have : E.voidOn l o = false := by simp [Env.voidOn, hs]
          simp [List.takeWhile_cons, List.dropWhile_cons, this]
        | some s =>
          rw [hx] at h hs
          simp only at h
          by_cases hxl : x.1 = l
          · have hv : E.voidOn l o = true := by simp [Env.voidOn, hs, hh, ← hl, hxl]
            rw [if_neg (by simpa using hxl)] at h
            cases hr : E.holes l r with
            | ub => rw [hr] at h; simp at h
            | exn => rw [hr] at h; simp at h
            | ok z =>
              rw [hr, Res.bind_ok] at h
              simp only [Res.ok.injEq] at h; subst h
              obtain ⟨h1, h2, _⟩ := ih z hr
              refine ⟨?_, ?_, ?_⟩
              · rw [List.takeWhile_cons, if_pos hv, List.filterMap_cons, hs]
                simp [h1]
              · rw [List.dropWhile_cons, if_pos hv]; exact h2
              · simp [List.takeWhile_cons, hv]
          · rw [if_pos hxl] at h
            simp only [Res.ok.injEq] at h; subst h
            have : E.voidOn l o = false := by
              have : o.layer ≠ l := by rw [← hl]; exact hxl
              simp [Env.voidOn, this]
            simp [List.takeWhile_cons, List.dropWhile_cons, this]
    · simp only [hh, Bool.not_false, if_true, Res.ok.injEq] at h
      subst h
      have : E.voidOn l o = false := by simp [Env.voidOn, hh]
      simp [List.takeWhile_cons, List.dropWhile_cons, this]

/-- nothing is drawn for voids -/
theorem drawn_void (net : Int) (o : Obj K) (r : List (Obj K)) (h : o.isHole = true) : E.drawn net o r = [] := by
  simp only [Env.drawn]
  split
  · rfl
  · cases o <;> simp_all [Obj.isHole, Obj.isShape]

theorem drawnAll_voids (net : Int) (l : Int) (r : List (Obj K)) : E.drawnAll net r = E.drawnAll net (r.dropWhile (E.voidOn l)) := by
  induction r with
  | nil => rfl
  | cons o r ih =>
    rw [List.dropWhile_cons]
    split
    · next h =>
      have hh : o.isHole = true := by simp only [Env.voidOn, Bool.and_eq_true] at h; exact h.1.1
      rw [Env.drawnAll, drawn_void E net o r hh, List.nil_append, ih]
    · rfl

/-- the general case of one turn: a shape -/
theorem step_shape (net : Int) (used : List String) (o : Obj K) (r : List (Obj K)) (ho : o.isShape = true) :
    E.step net used o r =
      if o.isHole then .ok (used, [], r)
      else (E.mkShape o).bind fun x =>
        match UMap.find? E.metal x.1 with
        | none => .ok (used, [], r)
        | some l =>
          match x.2 with
          | none => .ok (used, [], r)
          | some s =>
            (E.holes x.1 r).bind fun y =>
            if y.1.isEmpty then
              if !s.isValid then .ok (used, [], y.2)
              else .ok (used, [.geom l net s], y.2)
            else
              let pwh : Shape K := .holes (s.contour E.G.lib.toLib) (y.1.map fun h => h.contour E.G.lib.toLib)
              if !pwh.isValid then .ok (used, [], y.2)
              else .ok (used, [.geom l net pwh], y.2) := by
  cases o <;> first | rfl | simp [Obj.isShape] at ho

/-- the objects left are shorter than those given, and nothing drawn for those in between is missing -/
theorem step_spec (net : Int) (used : List String) (o : Obj K) (r : List (Obj K)) (x : List String × List (Out K) × List (Obj K))
    (h : E.step net used o r = .ok x) :
    x.2.2.length ≤ r.length ∧ geoms x.2.1 ++ E.drawnAll net x.2.2 = E.drawn net o r ++ E.drawnAll net r := by
  by_cases ho : o.isShape = true
  · rw [step_shape E net used o r ho] at h
    by_cases hh : o.isHole = true
    · rw [if_pos hh] at h
      simp only [Res.ok.injEq] at h; subst h
      exact ⟨le_rfl, by rw [drawn_void E net o r hh]; rfl⟩
    · rw [if_neg hh] at h
      cases hm : E.mkShape o with
      | ub => rw [hm] at h; simp at h
      | exn => rw [hm] at h; simp at h
      | ok y =>
        rw [hm, Res.bind_ok] at h
        have hl := mkShape_layer E o ho y hm
        have hs : E.shapeOf o = y.2 := by simp [Env.shapeOf, hm]
        rw [hl] at h
        have hd : E.drawn net o r = match UMap.find? E.metal o.layer with
            | none => []
            | some l => match y.2 with
              | none => []
              | some s =>
                let t := E.cut s ((r.takeWhile (E.voidOn o.layer)).filterMap E.shapeOf)
                if t.isValid then [.geom l net t] else [] := by
          rw [← hs]
          unfold Env.drawn
          cases UMap.find? E.metal o.layer with
          | none => rfl
          | some l => cases o <;> first | (simp [Obj.isShape] at ho; done) | simp [Obj.isShape, hh]
        rw [hd]
        cases hmet : UMap.find? E.metal o.layer with
        | none =>
          rw [hmet] at h
          simp only [Res.ok.injEq] at h; subst h
          exact ⟨le_rfl, rfl⟩
        | some l =>
          rw [hmet] at h
          cases hy : y.2 with
          | none =>
            rw [hy] at h
            simp only [Res.ok.injEq] at h; subst h
            exact ⟨le_rfl, rfl⟩
          | some s =>
            rw [hy] at h
            simp only at h
            cases hho : E.holes o.layer r with
            | ub => rw [hho] at h; simp at h
            | exn => rw [hho] at h; simp at h
            | ok z =>
              rw [hho, Res.bind_ok] at h
              obtain ⟨h1, h2, _⟩ := holes_spec E o.layer r z hho
              have hlen : z.2.length ≤ r.length := by rw [h2]; exact (List.dropWhile_sublist _).length_le
              have hda := drawnAll_voids E net o.layer r
              rw [← h2] at hda
              simp only [← h1]
              by_cases hz : z.1 = []
              · simp only [hz, List.isEmpty_nil, if_true] at h
                simp only [hz, Env.cut, if_true]
                by_cases hv : s.isValid = true
                · simp only [hv, Bool.not_true, Bool.false_eq_true, if_false, Res.ok.injEq] at h
                  subst h
                  exact ⟨hlen, by rw [hda]; simp [hv, geoms]⟩
                · simp only [hv, Bool.not_false, if_true, Res.ok.injEq] at h
                  subst h
                  exact ⟨hlen, by rw [hda]; simp [hv, geoms]⟩
              · have hz' : z.1.isEmpty = false := by simpa using hz
                simp only [hz', Bool.false_eq_true, if_false] at h
                simp only [Env.cut, if_neg hz]
                by_cases hv : (Shape.holes (s.contour E.G.lib.toLib) (z.1.map fun h => h.contour E.G.lib.toLib)).isValid = true
                · simp only [hv, Bool.not_true, Bool.false_eq_true, if_false, Res.ok.injEq] at h
                  subst h
                  exact ⟨hlen, by rw [hda]; simp [hv, geoms]⟩
                · simp only [hv, Bool.not_false, if_true, Res.ok.injEq] at h
                  subst h
                  exact ⟨hlen, by rw [hda]; simp [hv, geoms]⟩
  · cases o with
    | path l w p =>
      simp only [Env.step] at h
      simp only [Env.drawn, Obj.layer]
      cases hm : UMap.find? E.metal l with
      | none => rw [hm] at h; simp only [Res.ok.injEq] at h; subst h; exact ⟨le_rfl, rfl⟩
      | some l' =>
        rw [hm] at h
        cases hc : E.G.composite p with
        | ub => rw [hc] at h; simp at h
        | exn => rw [hc] at h; simp at h
        | ok ps =>
          simp only [hc, Res.bind_ok] at h
          have hne : ps.length ≠ 0 := by
            cases p with
            | nil => simp [Getter.composite] at hc
            | cons a p =>
              cases a with
              | pt q =>
                simp only [Getter.composite] at hc
                cases hl : E.G.compositeLoop q p with
                | ok qs => rw [hl] at hc; simp only [Res.bind_ok, Res.ok.injEq] at hc; rw [← hc]; simp
                | ub => rw [hl] at hc; simp at hc
                | exn => rw [hl] at hc; simp at hc
              | arc _ _ _ => simp [Getter.composite] at hc
          rw [if_neg hne] at h
          simp only [Res.ok.injEq] at h; subst h
          exact ⟨le_rfl, rfl⟩
    | via s e n loc rot mir =>
      have hd : E.drawn net (.via s e n loc rot mir) r = [] := by
        simp only [Env.drawn]
        split <;> simp [Obj.isShape]
      rw [hd]
      simp only [Env.step] at h
      split at h
      · split at h
        · simp only [Res.ok.injEq] at h; subst h; exact ⟨le_rfl, rfl⟩
        · split at h
          · simp only [Res.ok.injEq] at h; subst h; exact ⟨le_rfl, rfl⟩
          · simp only [Res.ok.injEq] at h; subst h; exact ⟨le_rfl, rfl⟩
      · simp only [Res.ok.injEq] at h; subst h; exact ⟨le_rfl, rfl⟩
    | bondwire =>
      have hd : E.drawn net .bondwire r = [] := by
        simp only [Env.drawn]
        split <;> simp [Obj.isShape]
      rw [hd]
      simp only [Env.step, Res.ok.injEq] at h; subst h; exact ⟨le_rfl, rfl⟩
    | annular l outer inner loc =>
      simp only [Env.step] at h
      simp only [Env.drawn, Obj.layer]
      cases hm : UMap.find? E.metal l with
      | none => rw [hm] at h; simp only [Res.ok.injEq] at h; subst h; exact ⟨le_rfl, rfl⟩
      | some l' =>
        rw [hm] at h
        cases hg : E.G.get (.annular outer inner) with
        | ub => simp [Getter.get] at hg
        | exn => simp [Getter.get] at hg
        | ok s =>
          simp only [hg, Res.bind_ok] at h
          by_cases hv : s.isValid = true
          · simp only [hv, Bool.not_true, Bool.false_eq_true, if_false, Res.ok.injEq] at h
            subst h
            exact ⟨le_rfl, by simp [hv, geoms]⟩
          · simp only [hv, Bool.not_false, if_true, Res.ok.injEq] at h
            subst h
            exact ⟨le_rfl, by simp [hv, geoms]⟩
    | _ => exact absurd rfl ho

/-- C86: rectangles, squares, diamonds and circles are the shapes that their sizes say (C87), moved to their location. -/
theorem c86_placed (hole : Bool) (lyr : Int) (loc : K × K) :
    ∃ T : Aff K, (∀ p : K × K, T.act p = (E.G.scale * loc.1 + p.1, E.G.scale * loc.2 + p.2)) ∧
      (∀ w h s, E.G.get (.rectangle w h) = .ok s → E.mkShape (.rectangle hole lyr w h loc) = .ok (lyr, some (s.transform T))) ∧
      (∀ w s, E.G.get (.square w) = .ok s → E.mkShape (.square hole lyr w loc) = .ok (lyr, some (s.transform T))) ∧
      (∀ w s, E.G.get (.diamond w) = .ok s → E.mkShape (.diamond hole lyr w loc) = .ok (lyr, some (s.transform T))) ∧
      ∀ d, E.mkShape (.circle hole lyr d loc) = .ok (lyr, some (.circle (E.G.scale * loc.1, E.G.scale * loc.2) (d / 2) E.G.div)) := by
  have hT : ∀ p : K × K, (mat E.R 0 (mkPt E.G.scale loc) .no).act p = (E.G.scale * loc.1 + p.1, E.G.scale * loc.2 + p.2) := by
    intro p
    simp only [mat, mkPt, if_true, Aff.comp, Aff.one, Aff.act, Prod.mk.injEq]
    constructor <;> ring
  refine ⟨mat E.R 0 (mkPt E.G.scale loc) .no, hT, fun w h s hs => ?_, fun w s hs => ?_, fun w s hs => ?_, fun d => ?_⟩
  · simp only [Env.mkShape, hs, Res.bind]
  · simp only [Env.mkShape, hs, Res.bind]
  · simp only [Env.mkShape, hs, Res.bind]
  · simp only [Env.mkShape, Getter.get, Res.bind, Shape.transform, hT, add_zero]
    congr 4
    ring

/-- turned about the origin by the direction `r`, if the angle is not zero -/
def turned (r : K × K) (rot : Int) (p : K × K) : K × K := if rot = 0 then p else (r.1 * p.1 - r.2 * p.2, r.2 * p.1 + r.1 * p.2)

/-- mirrored as a letter says: `N` not, `X` upside down, others left to right -/
def flipped (c : Char) (p : K × K) : K × K := if c = 'N' then p else if c = 'X' then (p.1, -p.2) else (-p.1, p.2)

/-- C86: a placed template is put where its entry says: turned and mirrored, in the order that the entry says, then moved to its location. -/
theorem c86_template (hole : Bool) (lyr id : Int) (loc : K × K) (rot : Int) (c : Char) (rtm : Bool) {ts : Shape K} (ht : UMap.find? E.tmpl id = some ts) :
    ∃ A : Aff K, E.mkShape (.shape hole lyr id loc rot c rtm) = .ok (lyr, some (.templ A ts)) ∧
      ∀ p : K × K, A.act p = (E.G.scale * loc.1 + (if rtm then flipped c (turned (E.R rot) rot p) else turned (E.R rot) rot (flipped c p)).1,
        E.G.scale * loc.2 + (if rtm then flipped c (turned (E.R rot) rot p) else turned (E.R rot) rot (flipped c p)).2) := by
  unfold Env.mkShape
  dsimp only
  rw [ht]
  dsimp only
  cases rtm
  · rw [if_neg (by simp)]
    refine ⟨_, rfl, fun p => ?_⟩
    unfold turned flipped mirOf mat mkPt
    by_cases h1 : c = 'N' <;> by_cases h2 : c = 'X' <;> by_cases h3 : rot = 0 <;>
      simp [h1, h2, h3, Aff.act, Aff.comp, Aff.one] <;> (try constructor) <;> ring
  · rw [if_pos rfl]
    refine ⟨_, rfl, fun p => ?_⟩
    unfold turned flipped mirOf mat mkPt
    by_cases h1 : c = 'N' <;> by_cases h2 : c = 'X' <;> by_cases h3 : rot = 0 <;>
      simp [h1, h2, h3, Aff.act, Aff.comp, Aff.one] <;> (try constructor) <;> ring

/-- C86: the shapes created for a route are, object by object, those drawn for its paths, rings and shapes that
are not voids, each of the latter with exactly the voids cut out that follow it directly on its layer. -/
theorem c86_shapes (net : Int) (objs : List (Obj K)) (used : List String) (y : List String × List (Out K))
    (h : E.route net objs.length used objs = .ok y) : geoms y.2 = E.drawnAll net objs := by
  have main : ∀ (n : Nat) (objs : List (Obj K)) (used : List String) (y : List String × List (Out K)), objs.length ≤ n →
      E.route net n used objs = .ok y → geoms y.2 = E.drawnAll net objs := by
    intro n
    induction n with
    | zero =>
      intro objs used y hl h
      have : objs = [] := List.length_eq_zero_iff.1 (by omega)
      subst this
      simp only [Env.route, Res.ok.injEq] at h; subst h; rfl
    | succ n ih =>
      intro objs used y hl h
      cases objs with
      | nil => simp only [Env.route, Res.ok.injEq] at h; subst h; rfl
      | cons o r =>
        simp only [Env.route] at h
        cases hs : E.step net used o r with
        | ub => rw [hs] at h; simp at h
        | exn => rw [hs] at h; simp at h
        | ok x =>
          rw [hs, Res.bind_ok] at h
          obtain ⟨h1, h2⟩ := step_spec E net used o r x hs
          cases hr : E.route net n x.1 x.2.2 with
          | ub => rw [hr] at h; simp at h
          | exn => rw [hr] at h; simp at h
          | ok z =>
            rw [hr, Res.bind_ok] at h
            simp only [Res.ok.injEq] at h; subst h
            have := ih x.2.2 x.1 z (by simp at hl; omega) hr
            have hg : geoms (x.2.1 ++ z.2) = geoms x.2.1 ++ geoms z.2 := List.filter_append ..
            rw [hg, this, h2]; rfl
  exact main _ objs used y le_rfl h

/-- C86: routes of nets that are not known are dropped, all others are drawn one after the other. -/
theorem c86_routes (netId : String → Option Int) (rs : List (String × List (Obj K))) (used : List String) (y : List String × List (Out K))
    (h : E.routes netId used rs = .ok y) :
    geoms y.2 = rs.flatMap fun r => match netId r.1 with
      | none => []
      | some i => E.drawnAll i r.2 := by
  induction rs generalizing used y with
  | nil => simp only [Env.routes, Res.ok.injEq] at h; subst h; rfl
  | cons r rs ih =>
    obtain ⟨n, objs⟩ := r
    simp only [Env.routes] at h
    cases hn : netId n with
    | none =>
      simp only [hn] at h
      simp only [List.flatMap_cons, hn, List.nil_append]
      exact ih used y h
    | some i =>
      simp only [hn] at h
      cases hr : E.route i objs.length used objs with
      | ub => rw [hr] at h; simp at h
      | exn => rw [hr] at h; simp at h
      | ok x =>
        rw [hr, Res.bind_ok] at h
        cases hs : E.routes netId x.1 rs with
        | ub => rw [hs] at h; simp at h
        | exn => rw [hs] at h; simp at h
        | ok z =>
          rw [hs, Res.bind_ok] at h
          simp only [Res.ok.injEq] at h; subst h
          have hg : geoms (x.2 ++ z.2) = geoms x.2 ++ geoms z.2 := List.filter_append ..
          simp only [List.flatMap_cons, hn]
          rw [hg, ih x.1 z hs, c86_shapes E i objs used x hr]

/-! ### all voids of a layer -/

/-- what should be drawn for the first of the objects `o :: r`: as `Env.drawn`, but with all voids on the
layer of a shape cut out that come before the next shape on this layer -/
def Env.wanted (net : Int) (o : Obj K) (r : List (Obj K)) : List (Out K) :=
  if o.isShape && !o.isHole then
    match UMap.find? E.metal o.layer, E.shapeOf o with
    | some l, some s =>
      let voids := (r.takeWhile fun h => !h.posOn o.layer).filter (E.voidOn o.layer)
      let t := E.cut s (voids.filterMap E.shapeOf)
      if t.isValid then [.geom l net t] else []
    | _, _ => []
  else E.drawn net o r

def Env.wantedAll (net : Int) : List (Obj K) → List (Out K)
  | [] => []
  | o :: r => E.wanted net o r ++ Env.wantedAll net r

/-- every void has an outline and directly follows a shape or void on its layer -/
def Env.Tidy : List (Obj K) → Prop
  | a :: b :: r => (b.isHole = true → a.isShape = true ∧ a.layer = b.layer ∧ (E.shapeOf b).isSome = true) ∧ Env.Tidy (b :: r)
  | _ => True

theorem tidy_none (l : Int) (a : Obj K) (r : List (Obj K)) (ht : E.Tidy (a :: r)) (ha : ¬ (a.isShape = true ∧ a.layer = l)) :
    (r.takeWhile fun h => !h.posOn l).filter (E.voidOn l) = [] := by
  induction r generalizing a with
  | nil => rfl
  | cons b r ih =>
    obtain ⟨h1, h2⟩ := ht
    rw [List.takeWhile_cons]
    split
    · next hp =>
      have hb : ¬ (b.isHole = true ∧ b.layer = l) := by
        rintro ⟨hb, hl⟩
        obtain ⟨h3, h4, _⟩ := h1 hb
        exact ha ⟨h3, h4.trans hl⟩
      have hv : E.voidOn l b = false := by
        simp only [Env.voidOn, Bool.and_eq_false_iff, decide_eq_false_iff_not]
        by_cases hbh : b.isHole = true
        · exact .inl (.inr fun hl => hb ⟨hbh, hl⟩)
        · exact .inl (.inl (by simpa using hbh))
      rw [List.filter_cons, if_neg (by simp [hv])]
      apply ih b h2
      rintro ⟨hs, hl⟩
      simp only [Obj.posOn, hs, hl, Bool.true_and, decide_true, Bool.and_true, Bool.not_not] at hp
      exact hb ⟨hp, hl⟩
    · rfl

theorem tidy_run (l : Int) (a : Obj K) (r : List (Obj K)) (ht : E.Tidy (a :: r)) (ha : a.isShape = true ∧ a.layer = l) :
    (r.takeWhile fun h => !h.posOn l).filter (E.voidOn l) = r.takeWhile (E.voidOn l) := by
  induction r generalizing a with
  | nil => rfl
  | cons b r ih =>
    obtain ⟨h1, h2⟩ := ht
    by_cases hb : b.isHole = true
    · obtain ⟨_, h4, h5⟩ := h1 hb
      have hl : b.layer = l := h4.symm.trans ha.2
      have hv : E.voidOn l b = true := by simp [Env.voidOn, hb, hl, h5]
      have hp : b.posOn l = false := by simp [Obj.posOn, hb]
      rw [List.takeWhile_cons, if_pos (by simp [hp]), List.filter_cons, if_pos hv, List.takeWhile_cons, if_pos hv,
        ih b h2 ⟨isShape_of_isHole b hb, hl⟩]
    · have hv : E.voidOn l b = false := by simp [Env.voidOn, hb]
      rw [List.takeWhile_cons (p := E.voidOn l), if_neg (by simp [hv]), List.takeWhile_cons]
      split
      · next hp =>
        rw [List.filter_cons, if_neg (by simp [hv])]
        apply tidy_none E l b r h2
        rintro ⟨hs, hl⟩
        simp [Obj.posOn, hs, hl, hb] at hp
      · rfl

theorem wanted_eq (net : Int) (o : Obj K) (r : List (Obj K)) (ht : E.Tidy (o :: r)) : E.wanted net o r = E.drawn net o r := by
  unfold Env.wanted
  split
  · next ho =>
    have ho' : o.isShape = true := by simp only [Bool.and_eq_true] at ho; exact ho.1
    simp only [tidy_run E o.layer o r ht ⟨ho', rfl⟩]
    unfold Env.drawn
    cases UMap.find? E.metal o.layer with
    | none => rfl
    | some l =>
      cases o <;> first | (simp [Obj.isShape] at ho'; done) | (simp only [ho, if_true]; cases E.shapeOf _ <;> rfl)
  · rfl

/-- C86, partial: when every void directly follows its shape or another void on its layer, all shapes are
drawn with all their voids. -/
theorem c86_voids_partial (net : Int) (objs : List (Obj K)) (ht : E.Tidy objs) (used : List String) (y : List String × List (Out K))
    (h : E.route net objs.length used objs = .ok y) : geoms y.2 = E.wantedAll net objs := by
  rw [c86_shapes E net objs used y h]
  clear h
  induction objs with
  | nil => rfl
  | cons o r ih =>
    rw [Env.drawnAll, Env.wantedAll, wanted_eq E net o r ht, ih]
    cases r with
    | nil => trivial
    | cons b r => exact ht.2

/-- C86, refuted: a void on another layer in between and the second void is not cut out. -/
theorem c86_voids_refuted (net : Int) (l l' : Int) (hl : l' ≠ l) (id : Int) (hm : UMap.find? E.metal l = some id)
    (ps qs rs : List (K × K)) (hp : 3 ≤ ps.length) (used : List String) :
    E.route net 3 used [.polygon false l ps, .polygon true l' qs, .polygon true l rs] =
      .ok (used, [.geom id net (.polygon (ps.map E.G.pt))]) ∧
    E.wantedAll net [.polygon false l ps, .polygon true l' qs, .polygon true l rs] =
      [.geom id net (.holes (ps.map E.G.pt) [rs.map E.G.pt])] := by
  have hv : (Shape.polygon (ps.map E.G.pt)).isValid = true := by simp [Shape.isValid]; omega
  constructor
  · simp [Env.route, Env.step, Obj.isHole, Env.mkShape, Getter.get, hm, Env.holes, hl, hv]
  · have e1 : ∀ (v : Bool) (x : Int) (a : List (K × K)), E.shapeOf (.polygon v x a) = some (.polygon (a.map E.G.pt)) := by
      intro v x a; simp [Env.shapeOf, Env.mkShape, Getter.get]
    have e2 : ∀ (x : Int) (a : List (K × K)) (r : List (Obj K)), E.wanted net (.polygon true x a) r = [] := by
      intro x a r
      simp only [Env.wanted, Obj.isHole, Bool.not_true, Bool.and_false, Bool.false_eq_true, if_false]
      exact drawn_void E net _ r rfl
    simp only [Env.wantedAll, e2, List.append_nil, List.nil_append]
    have e3 : ((([.polygon true l' qs, .polygon true l rs] : List (Obj K)).takeWhile fun h => !h.posOn l).filter (E.voidOn l)) =
        [.polygon true l rs] := by
      simp [List.takeWhile_cons, Obj.posOn, Obj.isHole, Env.voidOn, Obj.layer, e1, hl]
    simp only [Env.wanted, Obj.isShape, Obj.isHole, Bool.not_false, Bool.and_true, if_true, Obj.layer, hm, e1, e3,
      List.filterMap_cons, List.filterMap_nil, Env.cut, List.cons_ne_nil, if_false, List.map_cons, List.map_nil, Shape.contour]
    rw [if_pos]
    simp only [Shape.isValid] at hv ⊢
    exact hv

/-- C86, refuted: a shape from a template that has holes itself (a ring, say) loses them when a void follows. -/
theorem c86_own_holes_refuted (net : Int) (l : Int) (id : Int) (hm : UMap.find? E.metal l = some id) (t : Int)
    (o : List (K × K)) (hs : List (List (K × K))) (ho : 3 ≤ o.length) (ht : UMap.find? E.tmpl t = some (.holes o hs))
    (q : List (K × K)) (used : List String) :
    ∃ m : Aff K, E.route net 2 used [.shape false l t (0, 0) 0 'N' true, .polygon true l q] =
      .ok (used, [.geom id net (.holes (o.map m.act) [q.map E.G.pt])]) := by
  refine ⟨(mat E.R 0 (mkPt E.G.scale (0, 0)) .no).comp Aff.one, ?_⟩
  have hv : (Shape.holes o hs).isValid = true := by simpa [Shape.isValid] using ho
  simp only [Shape.isValid, decide_eq_true_eq] at hv
  simp [Env.route, Env.step, Obj.isHole, Env.mkShape, ht, hm, Env.holes, Getter.get, Shape.transform, Shape.contour, Shape.isValid, hv, mirOf]
  rw [if_neg (by omega)]
  simp [Env.route]

/-! ### examples -/

/-- a getter without scaling and an environment with one metal layer, number 1 of the file, id 0 of the layout -/
def exEnv : Env ℚ where
  G := ⟨⟨⟨fun _ _ _ => [], fun _ _ => []⟩, fun _ _ _ => [], fun _ _ _ _ _ => [], fun _ _ _ => []⟩, 2, 4⟩
  tmpl := []
  metal := [(1, 0), (2, 3)]
  hasMap := fun s => s == "V"
  hasDef := fun s => s == "V"
  R := fun _ => (1, 0)

def exObjs : List (Obj ℚ) :=
  [.polygon false 1 [(0, 0), (9, 0), (9, 9)], .polygon true 1 [(1, 1), (2, 1), (2, 2)], .via 1 2 "V" (1, 1) 0 'N',
   .path 2 3 [.pt (0, 0), .pt (1, 0)], .via 1 2 "V" (2, 2) 0 'N', .polygon true 2 [(0, 0), (1, 1), (0, 1)], .via 1 7 "V" (2, 2) 0 'N']

/-- a circle of diameter 3 at (10, 20) in a file that is scaled by 2: only its place is scaled -/
example : exEnv.mkShape (.circle false 1 3 (10, 20)) = .ok (1, some (.circle (20, 40) (3 / 2) 4)) := by decide +kernel

/-- a template turned by a quarter and mirrored upside down, in either order -/
example : (fun rtm => match Env.mkShape { exEnv with tmpl := [(4, .circle (0, 0) 1 8)], R := fun _ => (0, 1) } (.shape false 1 4 (10, 20) 90 'X' rtm) with
    | .ok (1, some (.templ A _)) => A.act (3, 1)
    | _ => (0, 0)) = fun rtm => if rtm then (20 - 1, 40 - 3) else (20 + 1, 40 + 3) := by
  funext rtm
  cases rtm <;> decide +kernel

/-- the triangle with its void, the path; the last void is ignored -/
example : (exEnv.route 5 exObjs.length [] exObjs).bind (fun y => .ok (geoms y.2)) =
    .ok [.geom 0 5 (.holes [(0, 0), (18, 0), (18, 18)] [[(2, 2), (4, 2), (4, 4)]]), .geom 3 5 (.path [(0, 0), (2, 0)] 6)] := by
  decide +kernel

example : exEnv.Tidy [.polygon false 1 [(0, 0), (9, 0), (9, 9)], .polygon true 1 [(1, 1), (2, 1), (2, 2)], .path 2 3 [.pt (0, 0)]] := by
  refine ⟨fun _ => ⟨rfl, rfl, ?_⟩, ?_, trivial⟩
  · decide +kernel
  · intro h; exact absurd h (by decide)

end Ecad.Xfl
