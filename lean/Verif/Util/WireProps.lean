import Verif.Util.WireModel
import Verif.Util.UtilProps
import Mathlib.Tactic.Linarith
import Mathlib.Tactic.NormNum
import Mathlib.Tactic.Ring
/-!
C99: the polyline of a bond wire runs from its start to its end, within the box of its ends, and leaves
both surfaces on their outer side.
-/
namespace Ecad.Wire
open Util

/-! ### specification -/

/-- the height at distance `d` from the height `z`, away from the board: upwards, or downwards for a
flipped end -/
def outward (fl : Bool) (z d : ℚ) : ℚ := if fl then z - d else z + d

/-- the thickness of the solder joint at an end -/
def jointThick (e : WireEnd ℚ) : ℚ := e.joint.getD 0

/-- `h` is on the outer side of the height `z` or at `z` -/
def Outside (fl : Bool) (z h : ℚ) : Prop := (fl = false → z ≤ h) ∧ (fl = true → h ≤ z)

/-- the coordinate `c` is between `a` and `b` -/
def Between {A : Type} [LE A] (a b c : A) : Prop := (a ≤ c ∧ c ≤ b) ∨ (b ≤ c ∧ c ≤ a)

/-- What is assumed of the rounding of the library: it keeps order and integers. -/
structure Rounding (rnd : ℚ → Int) : Prop where
  mono : ∀ a b, a ≤ b → rnd a ≤ rnd b
  int : ∀ n : Int, rnd n = n

/-- truncation is such a rounding -/
example : Rounding Units.trunc :=
  ⟨fun _ _ h => Ecad.trunc_mono h, fun n => by
    unfold Units.trunc; split <;> simp⟩

/-- The ends of the wire are mounted on surfaces. -/
structure Mounted (l : List (Slab ℚ)) (w : Wire) (f0 : Bool) (z0 : ℚ) (f3 : Bool) (z3 : ℚ) : Prop where
  start : Surface l w.startEnd f0 z0
  fin : Surface l w.endEnd f3 z3
  startLayer : w.startEnd.layer ≠ -1
  endLayer : w.endEnd.layer ≠ -1

/-! ### proofs -/

theorem wireHeight_surface {l : List (Slab ℚ)} {e : WireEnd ℚ} {fl : Bool} {z : ℚ} (hno : e.layer ≠ -1)
    (hs : Surface l e fl z) : wireHeight l e = .ok (some (outward fl z (jointThick e), fl)) := by
  obtain ⟨h1, h2⟩ := c59_solder_joint l e fl z hno hs
  cases hj : e.joint with
  | none =>
    rw [(h1 hj).1]
    simp [outward, jointThick, hj]
  | some j =>
    obtain ⟨h, x, h3, -, h4, h5⟩ := h2 j hj
    rw [h3]
    cases fl with
    | false =>
      obtain ⟨ha, hb⟩ := h4 rfl
      simp only [outward, jointThick, hj, Option.getD_some]
      rw [← hb, ← ha]; simp
    | true =>
      obtain ⟨ha, hb⟩ := h5 rfl
      simp only [outward, jointThick, hj, Option.getD_some]
      rw [← hb, ← ha]; simp

theorem heights_mounted {l : List (Slab ℚ)} {w : Wire} {f0 f3 : Bool} {z0 z3 : ℚ}
    (M : Mounted l w f0 z0 f3 z3) :
    heights l w = .ok (true, (outward f0 z0 (jointThick w.startEnd), outward f3 z3 (jointThick w.endEnd)),
      (f0, f3)) := by
  simp [heights, wireHeight_surface M.startLayer M.start, wireHeight_surface M.endLayer M.fin]

/-- coordinates of a point on the way -/
theorem along_between {rnd : ℚ → Int} (R : Rounding rnd) (c : ℚ) (h0 : 0 ≤ c) (h1 : c ≤ 1) (p q : Int × Int) :
    Between p.1 q.1 (along rnd c p q).1 ∧ Between p.2 q.2 (along rnd c p q).2 := by
  have key : ∀ a b : Int, Between a b (a + rnd (((b - a : Int) : ℚ) * c)) := by
    intro a b
    rcases le_total a b with h | h
    · left
      have hd : (0 : ℚ) ≤ ((b - a : Int) : ℚ) := by exact_mod_cast (by omega : (0 : Int) ≤ b - a)
      have e1 := R.mono ((0 : Int) : ℚ) (((b - a : Int) : ℚ) * c) (by push_cast at *; exact mul_nonneg hd h0)
      have e2 := R.mono (((b - a : Int) : ℚ) * c) ((b - a : Int) : ℚ) (mul_le_of_le_one_right hd h1)
      rw [R.int] at e1 e2
      omega
    · right
      have hd : ((b - a : Int) : ℚ) ≤ 0 := by exact_mod_cast (by omega : b - a ≤ (0 : Int))
      have e1 := R.mono (((b - a : Int) : ℚ) * c) ((0 : Int) : ℚ)
        (by push_cast at *; exact mul_nonpos_of_nonpos_of_nonneg hd h0)
      have e2 := R.mono ((b - a : Int) : ℚ) (((b - a : Int) : ℚ) * c) (by nlinarith)
      rw [R.int] at e1 e2
      omega
  exact ⟨key _ _, key _ _⟩

/-- the thirteen points made of four -/
theorem refine_four (a b c d : Pt) (fuel : Nat) :
    minSeg midPt 10 (fuel + 3) [a, b, c, d] = some (.ok
      [a, midPt a (midPt a b), midPt a b, midPt (midPt a b) b, b, midPt b (midPt b c), midPt b c,
       midPt (midPt b c) c, c, midPt c (midPt c d), midPt c d, midPt (midPt c d) d, d]) := rfl

/-- A condition on points that holds at the mid point of two points if at both. -/
def MidClosed (P : Pt → Prop) : Prop := ∀ p q, P p → P q → P (midPt p q)

theorem forall_refined {P : Pt → Prop} (hP : MidClosed P) {a b c d : Pt} (ha : P a) (hb : P b) (hc : P c)
    (hd : P d) : ∀ p ∈ [a, midPt a (midPt a b), midPt a b, midPt (midPt a b) b, b, midPt b (midPt b c),
      midPt b c, midPt (midPt b c) c, c, midPt c (midPt c d), midPt c d, midPt (midPt c d) d, d], P p := by
  have h1 := hP _ _ ha hb
  have h2 := hP _ _ hb hc
  have h3 := hP _ _ hc hd
  intro p hp
  simp only [List.mem_cons, List.not_mem_nil, or_false] at hp
  rcases hp with rfl | rfl | rfl | rfl | rfl | rfl | rfl | rfl | rfl | rfl | rfl | rfl | rfl <;>
    first | assumption | (apply hP <;> assumption)

theorem between_mid {a b p q : Int} (hp : Between a b p) (hq : Between a b q) :
    Between a b ((p + q).tdiv 2) := by
  have h := Int.tdiv_eq_ediv_of_nonneg (a := p + q) (b := 2)
  have h' := Int.neg_tdiv (p + q) 2
  have h'' := Int.tdiv_eq_ediv_of_nonneg (a := -(p + q)) (b := 2)
  unfold Between at *
  omega

theorem midClosed_box (p q : Int × Int) :
    MidClosed fun x => Between p.1 q.1 x.x ∧ Between p.2 q.2 x.y :=
  fun _ _ h1 h2 => ⟨between_mid h1.1 h2.1, between_mid h1.2 h2.2⟩

theorem midClosed_height (lo hi : ℚ) : MidClosed fun x => lo ≤ x.h ∧ x.h ≤ hi := by
  intro p q h1 h2
  simp only [midPt]
  constructor <;> linarith [h1.1, h1.2, h2.1, h2.2]

theorem self_between_left (a b : Int) : Between a b a := by unfold Between; omega
theorem self_between_right (a b : Int) : Between a b b := by unfold Between; omega

/-- **C99**, what holds: a wire with both ends mounted has, in the layer cut model, thirteen points.  The
first is its start at the height of its surface plus solder joint, the last its end likewise; all lie in
the rectangle of the ends, and no point is farther from the board than the loop height allows; the wire
leaves the start on the outer side of the surface, and a simple wire the end, too.

*Missing*: the outer side at the end of a JEDEC4 wire, and wires of other types
(`c99_end_refuted`, `c99_type_refuted`); wires with an end without height (`c99_unmounted_refuted`). -/
theorem c99_polyline_partial {rnd : ℚ → Int} (R : Rounding rnd) (l : List (Slab ℚ)) (w : Wire)
    {f0 f3 : Bool} {z0 z3 : ℚ} (M : Mounted l w f0 z0 f3 z3) (hk : w.kind ≠ .other) (hh : 0 ≤ w.height)
    (fuel : Nat) :
    let h0 := outward f0 z0 (jointThick w.startEnd)
    let h3 := outward f3 z3 (jointThick w.endEnd)
    ∃ ps, cutPoints rnd l (fuel + 3) w = some (.ok ps) ∧ ps.length = 13 ∧
      ps.head? = some ⟨w.startPt.1, w.startPt.2, h0⟩ ∧ ps.getLast? = some ⟨w.endPt.1, w.endPt.2, h3⟩ ∧
      (∀ p ∈ ps, Between w.startPt.1 w.endPt.1 p.x ∧ Between w.startPt.2 w.endPt.2 p.y) ∧
      (∀ p ∈ ps, min h0 h3 - w.height ≤ p.h ∧ p.h ≤ max h0 h3 + w.height) ∧
      (f0 = false → f3 = false → ∀ p ∈ ps, min h0 h3 ≤ p.h) ∧
      (f0 = true → f3 = true → ∀ p ∈ ps, p.h ≤ max h0 h3) ∧
      (∃ p q, ps[4]? = some p ∧ p.h = outward f0 h0 w.height ∧ ps[1]? = some q ∧ Outside f0 h0 q.h) ∧
      (w.kind = .simple → ∃ p q, ps[8]? = some p ∧ p.h = outward f3 h3 w.height ∧
        ps[11]? = some q ∧ Outside f3 h3 q.h) := by
  intro h0 h3
  have hH := heights_mounted M
  have m1 := min_le_left h0 h3
  have m2 := min_le_right h0 h3
  have m3 := le_max_left h0 h3
  have m4 := le_max_right h0 h3
  -- common part for four points
  have common : ∀ (b c : Int × Int) (hb hc : ℚ),
      (Between w.startPt.1 w.endPt.1 b.1 ∧ Between w.startPt.2 w.endPt.2 b.2) →
      (Between w.startPt.1 w.endPt.1 c.1 ∧ Between w.startPt.2 w.endPt.2 c.2) →
      hb = outward f0 h0 w.height → (hc = outward f0 h0 w.height ∨ hc = outward f3 h3 w.height) →
      segments rnd l w = .ok (true, [pt w.startPt h0, pt b hb, pt c hc, pt w.endPt h3]) →
      ∃ ps, cutPoints rnd l (fuel + 3) w = some (.ok ps) ∧ ps.length = 13 ∧
      ps.head? = some ⟨w.startPt.1, w.startPt.2, h0⟩ ∧ ps.getLast? = some ⟨w.endPt.1, w.endPt.2, h3⟩ ∧
      (∀ p ∈ ps, Between w.startPt.1 w.endPt.1 p.x ∧ Between w.startPt.2 w.endPt.2 p.y) ∧
      (∀ p ∈ ps, min h0 h3 - w.height ≤ p.h ∧ p.h ≤ max h0 h3 + w.height) ∧
      (f0 = false → f3 = false → ∀ p ∈ ps, min h0 h3 ≤ p.h) ∧
      (f0 = true → f3 = true → ∀ p ∈ ps, p.h ≤ max h0 h3) ∧
      (∃ p q, ps[4]? = some p ∧ p.h = outward f0 h0 w.height ∧ ps[1]? = some q ∧ Outside f0 h0 q.h) ∧
      (hc = outward f3 h3 w.height → ∃ p q, ps[8]? = some p ∧ p.h = outward f3 h3 w.height ∧
        ps[11]? = some q ∧ Outside f3 h3 q.h) := by
    intro b c hb hc bb bc eb ec hs
    refine ⟨_, by simp only [cutPoints, segmentsMin, hs, refine_four]; rfl, rfl, rfl, rfl, ?_, ?_, ?_, ?_, ?_, ?_⟩
    · exact forall_refined (midClosed_box w.startPt w.endPt)
        ⟨self_between_left _ _, self_between_left _ _⟩ bb bc ⟨self_between_right _ _, self_between_right _ _⟩
    · refine forall_refined (midClosed_height _ _) ?_ ?_ ?_ ?_
      · simp only [pt]; constructor <;> linarith
      · simp only [pt, eb, outward]; split <;> constructor <;> linarith
      · simp only [pt]
        rcases ec with ec | ec <;> rw [ec] <;> simp only [outward] <;> split <;> constructor <;> linarith
      · simp only [pt]; constructor <;> linarith
    · intro e0 e3 p hp
      have := forall_refined (midClosed_height (min h0 h3) (max h0 h3 + w.height))
        (a := pt w.startPt h0) (b := pt b hb) (c := pt c hc) (d := pt w.endPt h3)
        (by simp only [pt]; constructor <;> linarith)
        (by simp only [pt, eb, outward, e0]; constructor <;> simp only [Bool.false_eq_true, if_false, if_true] <;> linarith)
        (by simp only [pt]; rcases ec with ec | ec <;> rw [ec] <;> simp only [outward, e0, e3] <;>
              constructor <;> simp only [Bool.false_eq_true, if_false, if_true] <;> linarith)
        (by simp only [pt]; constructor <;> linarith) p hp
      exact this.1
    · intro e0 e3 p hp
      have := forall_refined (midClosed_height (min h0 h3 - w.height) (max h0 h3))
        (a := pt w.startPt h0) (b := pt b hb) (c := pt c hc) (d := pt w.endPt h3)
        (by simp only [pt]; constructor <;> linarith)
        (by simp only [pt, eb, outward, e0]; constructor <;> simp only [Bool.false_eq_true, if_false, if_true] <;> linarith)
        (by simp only [pt]; rcases ec with ec | ec <;> rw [ec] <;> simp only [outward, e0, e3] <;>
              constructor <;> simp only [Bool.false_eq_true, if_false, if_true] <;> linarith)
        (by simp only [pt]; constructor <;> linarith) p hp
      exact this.2
    · refine ⟨_, _, rfl, eb, rfl, ?_⟩
      simp only [midPt, pt, eb, outward, Outside]
      constructor <;> intro e <;> simp only [e] <;> simp <;> linarith
    · intro e
      refine ⟨_, _, rfl, e, rfl, ?_⟩
      simp only [midPt, pt, e, outward, Outside]
      constructor <;> intro e <;> simp only [e] <;> simp <;> linarith
  cases hk' : w.kind with
  | other => exact absurd hk' hk
  | simple =>
    obtain ⟨ps, k⟩ := common (along rnd (1 / 8) w.startPt w.endPt) (along rnd (7 / 8) w.startPt w.endPt)
      _ _ (along_between R _ (by norm_num) (by norm_num) _ _)
      (along_between R _ (by norm_num) (by norm_num) _ _) rfl (Or.inr rfl)
      (by simp only [segments, hk', simple, hH, Res.bind_ok]; rfl)
    exact ⟨ps, k.1, k.2.1, k.2.2.1, k.2.2.2.1, k.2.2.2.2.1, k.2.2.2.2.2.1, k.2.2.2.2.2.2.1,
      k.2.2.2.2.2.2.2.1, k.2.2.2.2.2.2.2.2.1, fun _ => k.2.2.2.2.2.2.2.2.2 rfl⟩
  | jedec4 =>
    obtain ⟨ps, k⟩ := common w.startPt (along rnd (1 / 8) w.startPt w.endPt)
      _ _ ⟨self_between_left _ _, self_between_left _ _⟩
      (along_between R _ (by norm_num) (by norm_num) _ _) rfl (Or.inl rfl)
      (by simp only [segments, hk', jedec4, hH, Res.bind_ok]; rfl)
    exact ⟨ps, k.1, k.2.1, k.2.2.1, k.2.2.2.1, k.2.2.2.2.1, k.2.2.2.2.2.1, k.2.2.2.2.2.2.1,
      k.2.2.2.2.2.2.2.1, k.2.2.2.2.2.2.2.2.1, fun h => by simp at h⟩

theorem segments_jedec4 (rnd : ℚ → Int) {l : List (Slab ℚ)} {w : Wire} {f0 f3 : Bool} {z0 z3 : ℚ}
    (M : Mounted l w f0 z0 f3 z3) (hk : w.kind = .jedec4) :
    segments rnd l w = .ok (true, [pt w.startPt (outward f0 z0 (jointThick w.startEnd)),
      pt w.startPt (off f0 (outward f0 z0 (jointThick w.startEnd)) w.height),
      pt (along rnd (1 / 8) w.startPt w.endPt) (off f0 (outward f0 z0 (jointThick w.startEnd)) w.height),
      pt w.endPt (outward f3 z3 (jointThick w.endEnd))]) := by
  simp only [segments, hk, jedec4, heights_mounted M, Res.bind_ok]; rfl

/-- The claim at the end is false of the code: a JEDEC4 wire whose end is on an upper face higher than its
loop, or on a lower face and the loop above it, arrives from inside the board. -/
theorem c99_end_refuted {rnd : ℚ → Int} (l : List (Slab ℚ)) (w : Wire)
    {f0 f3 : Bool} {z0 z3 : ℚ} (M : Mounted l w f0 z0 f3 z3) (hk : w.kind = .jedec4) (fuel : Nat)
    (h : (f3 = false ∧ outward f0 (outward f0 z0 (jointThick w.startEnd)) w.height <
            outward f3 z3 (jointThick w.endEnd)) ∨
         (f3 = true ∧ outward f3 z3 (jointThick w.endEnd) <
            outward f0 (outward f0 z0 (jointThick w.startEnd)) w.height)) :
    ∃ ps q, cutPoints rnd l (fuel + 3) w = some (.ok ps) ∧ ps[11]? = some q ∧
      ¬ Outside f3 (outward f3 z3 (jointThick w.endEnd)) q.h := by
  have hs := segments_jedec4 rnd M hk
  refine ⟨_, _, by simp only [cutPoints, segmentsMin, hs, refine_four]; rfl, rfl, ?_⟩
  simp only [midPt, pt, Outside, off]
  simp only [outward] at h ⊢
  rcases h with ⟨h1, h2⟩ | ⟨h1, h2⟩
  · intro hc
    have := hc.1 h1
    simp only [h1] at h2 this
    linarith
  · intro hc
    have := hc.2 h1
    simp only [h1] at h2 this
    linarith

/-- A wire of another type has no points. -/
theorem c99_type_refuted (rnd : ℚ → Int) (l : List (Slab ℚ)) (w : Wire) (hk : w.kind = .other) (fuel : Nat) :
    cutPoints rnd l fuel w = some (.ok []) := by
  simp [cutPoints, segmentsMin, segments, hk]

/-- A wire that has no end layer goes into the model nevertheless: with four points, of which all but the
first are at height zero, wherever the board is. -/
theorem c99_unmounted_refuted (rnd : ℚ → Int) (l : List (Slab ℚ)) (w : Wire) {f0 : Bool} {z0 : ℚ}
    (hs : Surface l w.startEnd f0 z0) (hl : w.startEnd.layer ≠ -1) (he : w.endEnd.layer = -1)
    (hk : w.kind ≠ .other) (fuel : Nat) :
    ∃ ps, cutPoints rnd l fuel w = some (.ok ps) ∧ ps.length = 4 ∧
      ps.map (·.h) = [outward f0 z0 (jointThick w.startEnd), 0, 0, 0] ∧
      ps.head? = some ⟨w.startPt.1, w.startPt.2, outward f0 z0 (jointThick w.startEnd)⟩ ∧
      ps.getLast? = some ⟨w.endPt.1, w.endPt.2, 0⟩ := by
  have h3 : wireHeight l w.endEnd = .ok none := by simp [wireHeight, WireEnd.isFlipped, he]
  have hH : heights l w = .ok (false, (outward f0 z0 (jointThick w.startEnd), 0), (f0, false)) := by
    simp [heights, wireHeight_surface hl hs, h3]
  cases hk' : w.kind with
  | other => exact absurd hk' hk
  | simple =>
    refine ⟨_, by simp only [cutPoints, segmentsMin, segments, hk', simple, hH, Res.bind_ok]; rfl, rfl, rfl,
      rfl, rfl⟩
  | jedec4 =>
    refine ⟨_, by simp only [cutPoints, segmentsMin, segments, hk', jedec4, hH, Res.bind_ok]; rfl, rfl, rfl,
      rfl, rfl⟩

/-- A wire without start layer: all heights are zero, that of the end too, wherever the end is. -/
theorem c99_no_start_refuted (rnd : ℚ → Int) (l : List (Slab ℚ)) (w : Wire) (he : w.startEnd.layer = -1)
    (hk : w.kind ≠ .other) (fuel : Nat) :
    ∃ ps, cutPoints rnd l fuel w = some (.ok ps) ∧ ps.map (·.h) = [0, 0, 0, 0] := by
  have h3 : wireHeight l w.startEnd = .ok none := by simp [wireHeight, WireEnd.isFlipped, he]
  have hH : heights l w = .ok (false, (0, 0), (false, false)) := by simp [heights, h3]
  cases hk' : w.kind with
  | other => exact absurd hk' hk
  | simple =>
    exact ⟨_, by simp only [cutPoints, segmentsMin, segments, hk', simple, hH, Res.bind_ok]; rfl, rfl⟩
  | jedec4 =>
    exact ⟨_, by simp only [cutPoints, segmentsMin, segments, hk', jedec4, hH, Res.bind_ok]; rfl, rfl⟩

/-- A wire of loop height zero of type JEDEC4 has segments of length zero: its first five points are the
same. -/
theorem c99_flat_refuted (rnd : ℚ → Int) (l : List (Slab ℚ)) (w : Wire)
    {f0 f3 : Bool} {z0 z3 : ℚ} (M : Mounted l w f0 z0 f3 z3) (hk : w.kind = .jedec4) (hh : w.height = 0)
    (fuel : Nat) : ∃ ps p, cutPoints rnd l (fuel + 3) w = some (.ok ps) ∧ ∀ i ≤ 4, ps[i]? = some p := by
  have hs := segments_jedec4 rnd M hk
  have ho : ∀ fl h, off fl h w.height = h := by intro fl h; simp [off, hh]
  have hm : ∀ p : Pt, midPt p p = p := by
    intro p
    obtain ⟨x, y, h⟩ := p
    simp only [midPt, Pt.mk.injEq]
    have ht : ∀ a : Int, (a + a).tdiv 2 = a := by
      intro a
      rw [← Int.two_mul, Int.mul_tdiv_cancel_left _ (by decide)]
    exact ⟨ht x, ht y, by ring⟩
  refine ⟨_, pt w.startPt (outward f0 z0 (jointThick w.startEnd)), by simp only [cutPoints, segmentsMin, hs, refine_four]; rfl, ?_⟩
  intro i hi
  have : i = 0 ∨ i = 1 ∨ i = 2 ∨ i = 3 ∨ i = 4 := by omega
  rcases this with rfl | rfl | rfl | rfl | rfl <;> simp only [ho, hm] <;> rfl

/-! ### examples -/

/-- example: a wire from the upper face of the top layer to the upper face of the layer below it, loop
height 4, with a joint at the start -/
def exWire (k : Kind) : Wire :=
  ⟨k, 4, (0, 0), (16, -8), ⟨0, none, false, some 1⟩, ⟨2, none, false, none⟩⟩

theorem exMounted (k : Kind) : Mounted exStack (exWire k) false 10 false 8 := by
  refine ⟨Or.inr ⟨by simp [exWire], rfl, 10, 2, by rw [c23_layer]; rfl, by norm_num⟩,
    Or.inr ⟨by simp [exWire], rfl, 8, 3, by rw [c23_layer]; rfl, by norm_num⟩, by simp [exWire], by simp [exWire]⟩

example : cutPoints Units.trunc exStack 3 (exWire .simple) = some (.ok
    [⟨0, 0, 11⟩, ⟨0, 0, 12⟩, ⟨1, 0, 13⟩, ⟨1, 0, 14⟩, ⟨2, -1, 15⟩, ⟨5, -2, 57 / 4⟩, ⟨8, -4, 27 / 2⟩,
     ⟨11, -5, 51 / 4⟩, ⟨14, -7, 12⟩, ⟨14, -7, 11⟩, ⟨15, -7, 10⟩, ⟨15, -7, 9⟩, ⟨16, -8, 8⟩]) := by
  decide +kernel

/-- example: the end is higher than the loop -/
example : Mounted exStack ⟨.jedec4, 1, (0, 0), (16, 8), ⟨3, none, false, none⟩, ⟨0, none, false, none⟩⟩
    false 5 false 10 ∧ outward false (outward false 5 0) 1 < outward false 10 0 := by
  refine ⟨⟨Or.inr ⟨by decide, rfl, 5, 1, by rw [c23_layer]; rfl, by norm_num⟩,
    Or.inr ⟨by decide, rfl, 10, 2, by rw [c23_layer]; rfl, by norm_num⟩, by decide, by decide⟩, by
      norm_num [outward]⟩

end Ecad.Wire
