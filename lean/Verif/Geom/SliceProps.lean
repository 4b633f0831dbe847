import Verif.Geom.CutModel
import Mathlib.Data.List.Nodup
import Mathlib.Tactic.FieldSimp
/-!
C27: slicing thick layers.
-/
namespace Ecad.Geom

/-! ### specification -/

/-- The ranges follow each other without gap or overlap from `top` down to `bot`. -/
def Stack : List Range → Int → Int → Prop
  | [], t, b => t = b
  | r :: rs, t, b => r.high = t ∧ Stack rs r.low b

/-- No range is thicker than `ratio` times a neighbour. -/
def Smooth (ratio : ℚ) (l : List Range) : Prop :=
  ∀ (i : Nat) (a b : Range), l[i]? = some a → l[i + 1]? = some b →
    (a.thick : ℚ) ≤ ratio * b.thick ∧ (b.thick : ℚ) ≤ ratio * a.thick

/-! ### one slice -/

theorem slice_mid {r : Range} (d : Int) (h : 2 * d ≤ r.thick) :
    d ≤ (slice r).1.thick ∧ d ≤ (slice r).2.thick := by
  unfold Range.thick at *
  have h1 : r.low + d ≤ round (((r.high + r.low : Int) : ℚ) / 2) := by
    rw [← round_int (r.low + d)]
    apply round_mono
    have : (2 : ℚ) * (r.low + d) ≤ r.high + r.low := by
      have : 2 * (r.low + d) ≤ r.high + r.low := by omega
      exact_mod_cast this
    push_cast
    linarith
  have h2 : round (((r.high + r.low : Int) : ℚ) / 2) ≤ r.high - d := by
    rw [← round_int (r.high - d)]
    apply round_mono
    have : ((r.high : ℚ) + r.low) ≤ 2 * (r.high - d) := by
      have : r.high + r.low ≤ 2 * (r.high - d) := by omega
      exact_mod_cast this
    push_cast
    linarith
  simp only [slice]
  omega

theorem stack_append {l l' : List Range} : ∀ {t b : Int},
    Stack (l ++ l') t b ↔ ∃ m, Stack l t m ∧ Stack l' m b := by
  induction l with
  | nil => intro t b; simp [Stack]
  | cons r l ih =>
    intro t b
    simp only [List.cons_append, Stack, ih]
    constructor
    · rintro ⟨h1, m, h2, h3⟩; exact ⟨m, ⟨h1, h2⟩, h3⟩
    · rintro ⟨m, ⟨h1, h2⟩, h3⟩; exact ⟨h1, m, h2, h3⟩

/-- the pieces a range is replaced with -/
def pieces (s1 s2 : Bool) (r : Range) : List Range :=
  (cut s1 r).1 ++ (cut s2 (cut s1 r).2).1 ++ [(cut s2 (cut s1 r).2).2]

theorem pieces_stack (s1 s2 : Bool) (r : Range) : Stack (pieces s1 s2 r) r.high r.low := by
  cases s1 <;> cases s2 <;> simp [pieces, cut, slice, Stack]

theorem pieces_high (s1 s2 : Bool) (r : Range) :
    ∃ l, (pieces s1 s2 r).map Range.high = r.high :: l := by
  cases s1 <;> cases s2 <;> simp [pieces, cut, slice]

theorem pieces_nonneg {s1 s2 : Bool} {r : Range} (h : 0 ≤ r.thick) :
    ∀ x ∈ pieces s1 s2 r, 0 ≤ x.thick := by
  have h1 := slice_mid (r := r) 0 (by omega)
  have h2 := slice_mid (r := (slice r).2) 0 (by omega)
  intro x hx
  cases s1 <;> cases s2 <;> simp [pieces, cut] at hx <;> (try rcases hx with rfl | rfl | rfl) <;>
    (try rcases hx with rfl | rfl) <;> (try subst hx) <;> first | exact h | exact h1.1 | exact h1.2 | exact h2.1 | exact h2.2

theorem pieces_pos {s1 s2 : Bool} {r : Range} (h : 1 ≤ r.thick)
    (h1 : s1 = true → 4 ≤ r.thick) (h2 : s2 = true → 4 ≤ r.thick) :
    ∀ x ∈ pieces s1 s2 r, 1 ≤ x.thick := by
  intro x hx
  cases s1 <;> cases s2
  · simp [pieces, cut] at hx; subst hx; exact h
  · have h4 := slice_mid (r := r) 1 (by have := h2 rfl; omega)
    simp [pieces, cut] at hx
    rcases hx with rfl | rfl
    · exact h4.1
    · exact h4.2
  · have h4 := slice_mid (r := r) 1 (by have := h1 rfl; omega)
    simp [pieces, cut] at hx
    rcases hx with rfl | rfl
    · exact h4.1
    · exact h4.2
  · have h4 := slice_mid (r := r) 2 (by have := h1 rfl; omega)
    have h5 := slice_mid (r := (slice r).2) 1 (by omega)
    simp [pieces, cut] at hx
    rcases hx with rfl | rfl | rfl
    · omega
    · exact h5.1
    · exact h5.2

theorem pieces_length (s1 s2 : Bool) (r : Range) :
    (pieces s1 s2 r).length = 1 + s1.toNat + s2.toNat := by
  cases s1 <;> cases s2 <;> rfl

theorem pass_cons (ratio : ℚ) (prev : Option Range) (cur : Range) (rest : List Range) :
    ∃ (s1 s2 : Bool) (last : Range), (s1 = match prev with
        | some p => over ratio cur.thick p.thick
        | none => false) ∧
      (s2 = match rest with
        | n :: _ => over ratio cur.thick n.thick
        | [] => false) ∧
      (pieces s1 s2 cur).getLast? = some last ∧
      slicePass ratio prev (cur :: rest) =
        (pieces s1 s2 cur ++ (slicePass ratio (some last) rest).1,
          s1 || s2 || (slicePass ratio (some last) rest).2) := by
  obtain ⟨s1, h1⟩ : ∃ s1 : Bool, s1 = (match prev with
        | some p => over ratio cur.thick p.thick
        | none => false) := ⟨_, rfl⟩
  obtain ⟨s2, h2⟩ : ∃ s2 : Bool, s2 = (match rest with
        | n :: _ => over ratio cur.thick n.thick
        | [] => false) := ⟨_, rfl⟩
  refine ⟨s1, s2, (cut s2 (cut s1 cur).2).2, h1, h2, by simp [pieces], ?_⟩
  subst h1 h2
  cases prev <;> cases rest <;>
    simp only [slicePass, pieces, List.append_assoc, List.singleton_append]

theorem pass_stack (ratio : ℚ) (l : List Range) : ∀ (prev : Option Range) (t b : Int), Stack l t b →
    Stack (slicePass ratio prev l).1 t b ∧
    (l.map Range.high).Sublist ((slicePass ratio prev l).1.map Range.high) ∧
    ((∀ x ∈ l, 0 ≤ x.thick) → ∀ x ∈ (slicePass ratio prev l).1, 0 ≤ x.thick) := by
  induction l with
  | nil => intro prev t b h; exact ⟨h, by simp [slicePass], by simp [slicePass]⟩
  | cons cur rest ih =>
    intro prev t b h
    obtain ⟨s1, s2, last, -, -, -, e⟩ := pass_cons ratio prev cur rest
    rw [e]
    obtain ⟨h1, h2⟩ := h
    obtain ⟨i1, i2, i3⟩ := ih (some last) _ _ h2
    refine ⟨?_, ?_, ?_⟩
    · simp only
      rw [stack_append]
      exact ⟨cur.low, h1 ▸ pieces_stack s1 s2 cur, i1⟩
    · simp only [List.map_append, List.map_cons]
      obtain ⟨q, hq⟩ := pieces_high s1 s2 cur
      rw [hq, List.cons_append]
      exact (i2.trans (List.sublist_append_right _ _)).cons₂ _
    · intro hn x hx
      simp only [List.mem_append] at hx
      rcases hx with hx | hx
      · exact pieces_nonneg (hn cur (by simp)) x hx
      · exact i3 (fun x hx => hn x (by simp [hx])) x hx

theorem pass_same (ratio : ℚ) (l : List Range) : ∀ prev,
    (slicePass ratio prev l).1.length ≥ l.length ∧
    ((slicePass ratio prev l).2 = true → (slicePass ratio prev l).1.length > l.length) ∧
    ((slicePass ratio prev l).2 = false → (slicePass ratio prev l).1 = l) := by
  induction l with
  | nil => intro prev; simp [slicePass]
  | cons cur rest ih =>
    intro prev
    obtain ⟨s1, s2, last, -, -, h3, e⟩ := pass_cons ratio prev cur rest
    obtain ⟨i1, i2, i3⟩ := ih (some last)
    rw [e]
    simp only [List.length_append, List.length_cons, pieces_length]
    refine ⟨by omega, ?_, ?_⟩
    · intro h
      cases s1 <;> cases s2 <;> simp at h ⊢
      · have := i2 h; omega
      all_goals omega
    · intro h
      cases s1 <;> cases s2 <;> simp at h
      rw [i3 h]
      simp [pieces, cut]

theorem over_iff {ratio : ℚ} {c p : Int} (hp : 0 < p) :
    over ratio c p = true ↔ ratio * p < c := by
  unfold over
  rw [if_neg (by omega), decide_eq_true_iff]
  have : (0 : ℚ) < p := by exact_mod_cast hp
  rw [gt_iff_lt, lt_div_iff₀ this]

theorem over_zero {ratio : ℚ} (hr : 0 < ratio) (p : Int) : over ratio 0 p = false := by
  unfold over
  split
  · simp
  · simp [hr.le]

/-! ### zero layers -/

theorem pass_zero {ratio : ℚ} (hr : 0 < ratio) (l : List Range) : ∀ prev,
    (∃ x ∈ l, x.thick = 0) → ∃ x ∈ (slicePass ratio prev l).1, x.thick = 0 := by
  induction l with
  | nil => intro prev h; simp at h
  | cons cur rest ih =>
    intro prev h
    obtain ⟨s1, s2, last, e1, e2, -, e⟩ := pass_cons ratio prev cur rest
    rw [e]
    by_cases hc : cur.thick = 0
    · have hs1 : s1 = false := by
        rw [e1, hc]; cases prev with
        | none => rfl
        | some p => exact over_zero hr _
      have hs2 : s2 = false := by
        rw [e2, hc]; cases rest with
        | nil => rfl
        | cons n _ => exact over_zero hr _
      exact ⟨cur, by simp [hs1, hs2, pieces, cut], hc⟩
    · obtain ⟨x, hx, hx0⟩ := h
      rcases List.mem_cons.1 hx with rfl | hx
      · exact absurd hx0 hc
      · obtain ⟨y, hy, hy0⟩ := ih (some last) ⟨x, hx, hx0⟩
        exact ⟨y, by simp [hy], hy0⟩

theorem pass_sliced_prev {ratio : ℚ} (hr : 0 < ratio) (l : List Range) : ∀ p : Range, p.thick = 0 →
    (∃ x ∈ l, 0 < x.thick) → (∀ x ∈ l, 0 ≤ x.thick) → (slicePass ratio (some p) l).2 = true := by
  induction l with
  | nil => intro p _ h; simp at h
  | cons cur rest ih =>
    intro p hp h hn
    obtain ⟨s1, s2, last, e1, e2, e3, e⟩ := pass_cons ratio (some p) cur rest
    rw [e]
    by_cases hc : 0 < cur.thick
    · have : s1 = true := by rw [e1]; simp [over, hp, hc]
      simp [this]
    · have hc0 : cur.thick = 0 := by have := hn cur (by simp); omega
      have hs1 : s1 = false := by rw [e1, hc0]; exact over_zero hr _
      have hs2 : s2 = false := by
        rw [e2, hc0]; cases rest with
        | nil => rfl
        | cons n _ => exact over_zero hr _
      have hl : last = cur := by
        rw [hs1, hs2] at e3
        simp [pieces, cut] at e3
        exact e3.symm
      obtain ⟨x, hx, hx0⟩ := h
      rcases List.mem_cons.1 hx with rfl | hx
      · exact absurd hx0 hc
      · have := ih cur hc0 ⟨x, hx, hx0⟩ (fun x hx => hn x (by simp [hx]))
        simp [hl, this]

theorem pass_sliced {ratio : ℚ} (hr : 0 < ratio) (l : List Range) : ∀ prev,
    (∃ x ∈ l, x.thick = 0) → (∃ x ∈ l, 0 < x.thick) → (∀ x ∈ l, 0 ≤ x.thick) →
      (slicePass ratio prev l).2 = true := by
  induction l with
  | nil => intro prev h; simp at h
  | cons cur rest ih =>
    intro prev hz h hn
    obtain ⟨s1, s2, last, e1, e2, e3, e⟩ := pass_cons ratio prev cur rest
    rw [e]
    by_cases hc : cur.thick = 0
    · have hs1 : s1 = false := by
        rw [e1, hc]; cases prev with
        | none => rfl
        | some p => exact over_zero hr _
      have hs2 : s2 = false := by
        rw [e2, hc]; cases rest with
        | nil => rfl
        | cons n _ => exact over_zero hr _
      have hl : last = cur := by
        rw [hs1, hs2] at e3
        simp [pieces, cut] at e3
        exact e3.symm
      obtain ⟨x, hx, hx0⟩ := h
      rcases List.mem_cons.1 hx with rfl | hx
      · omega
      · have := pass_sliced_prev hr rest cur hc ⟨x, hx, hx0⟩ (fun x hx => hn x (by simp [hx]))
        simp [hl, this]
    · have hcp : 0 < cur.thick := by have := hn cur (by simp); omega
      obtain ⟨z, hz, hz0⟩ := hz
      rcases List.mem_cons.1 hz with rfl | hz
      · exact absurd hz0 hc
      · cases rest with
        | nil => simp at hz
        | cons n rest =>
          by_cases hnz : n.thick = 0
          · have : s2 = true := by rw [e2]; simp [over, hnz, hcp]
            simp [this]
          · have := ih (some last) ⟨z, hz, hz0⟩
              ⟨n, by simp, by have := hn n (by simp); omega⟩ (fun x hx => hn x (by simp [hx]))
            simp [this]

theorem stack_pos {l : List Range} : ∀ {t b : Int}, Stack l t b → b < t → (∀ x ∈ l, 0 ≤ x.thick) →
    ∃ x ∈ l, 0 < x.thick := by
  induction l with
  | nil => intro t b h hb; simp [Stack] at h; omega
  | cons r l ih =>
    intro t b ⟨h1, h2⟩ hb hn
    by_cases hr : 0 < r.thick
    · exact ⟨r, by simp, hr⟩
    · have := hn r (by simp)
      have e : r.low = t := by unfold Range.thick at *; omega
      obtain ⟨x, hx, hx0⟩ := ih h2 (by omega) (fun x hx => hn x (by simp [hx]))
      exact ⟨x, by simp [hx], hx0⟩

/-- A stack of positive height with a layer of thickness zero is sliced for ever. -/
theorem c27_zero_never_ends {ratio : ℚ} (hr : 0 < ratio) (fuel : Nat) : ∀ (l : List Range) (t b : Int),
    Stack l t b → b < t → (∀ x ∈ l, 0 ≤ x.thick) → (∃ x ∈ l, x.thick = 0) →
    sliceAll ratio fuel l = none := by
  induction fuel with
  | zero => intros; rfl
  | succ n ih =>
    intro l t b hs hb hn hz
    obtain ⟨p1, p2, p3⟩ := pass_stack ratio l none t b hs
    rw [sliceAll]
    simp only [pass_sliced hr l none hz (stack_pos hs hb hn) hn, if_true]
    exact ih _ t b p1 hb (p3 hn) (pass_zero hr l none hz)

/-- all neighbours pass the comparisons when nothing is sliced -/
theorem pass_smooth {ratio : ℚ} (l : List Range) : ∀ prev, (slicePass ratio prev l).2 = false →
    (∀ x ∈ l, 0 < x.thick) → Smooth ratio l ∧
    ∀ p x, prev = some p → 0 < p.thick → l[0]? = some x → (x.thick : ℚ) ≤ ratio * p.thick := by
  induction l with
  | nil => intro prev _ _; exact ⟨by intro i a b h; simp at h, by intro p x _ _ h; simp at h⟩
  | cons cur rest ih =>
    intro prev h hp
    obtain ⟨s1, s2, last, e1, e2, e3, e⟩ := pass_cons ratio prev cur rest
    rw [e] at h
    simp only [Bool.or_eq_false_iff] at h
    obtain ⟨⟨h1, h2⟩, h3⟩ := h
    have hl : last = cur := by
      rw [h1, h2] at e3
      simp [pieces, cut] at e3
      exact e3.symm
    obtain ⟨i1, i2⟩ := ih (some last) h3 (fun x hx => hp x (by simp [hx]))
    refine ⟨?_, ?_⟩
    · intro i a b ha hb
      cases i with
      | zero =>
        simp only [List.getElem?_cons_zero, Option.some.injEq] at ha
        simp only [Nat.zero_add, List.getElem?_cons_succ] at hb
        subst ha
        refine ⟨?_, ?_⟩
        · cases rest with
          | nil => simp at hb
          | cons n rest =>
            simp only [List.getElem?_cons_zero, Option.some.injEq] at hb
            subst hb
            rw [e2] at h2
            have hn := hp n (by simp)
            by_contra hcon
            push Not at hcon
            simp only [(over_iff hn).2 hcon] at h2
            simp at h2
        · have := i2 cur b (by rw [hl]) (hp cur (by simp)) hb
          exact this
      | succ i => exact i1 i a b (by simpa using ha) (by simpa using hb)
    · intro p x hpx hp0 hx
      simp only [List.getElem?_cons_zero, Option.some.injEq] at hx
      subst hx
      subst hpx
      rw [e1] at h1
      by_contra hcon
      push Not at hcon
      simp only [(over_iff hp0).2 hcon] at h1
      simp at h1

/-- **C27, safety.** Full claim: for every contiguous stack of valid ranges and every ratio above one
slicing ends, and then the rest holds.  Proved here for every ratio: whenever slicing ends, the
stack is contiguous with the same top and bottom, every former boundary is kept, every layer has
positive thickness, and no layer is thicker than `ratio` times a neighbour. -/
theorem c27_slice_partial {ratio : ℚ} (hr : 0 < ratio) (fuel : Nat) : ∀ (l l' : List Range) (t b : Int),
    Stack l t b → b < t → (∀ x ∈ l, 0 ≤ x.thick) → sliceAll ratio fuel l = some l' →
    Stack l' t b ∧ (l.map Range.high).Sublist (l'.map Range.high) ∧
      (∀ x ∈ l', 0 < x.thick) ∧ Smooth ratio l' := by
  induction fuel with
  | zero => intro l l' t b _ _ _ h; simp [sliceAll] at h
  | succ n ih =>
    intro l l' t b hs hb hn h
    obtain ⟨p1, p2, p3⟩ := pass_stack ratio l none t b hs
    obtain ⟨-, -, q3⟩ := pass_same ratio l none
    have hz : ∀ x ∈ l, 0 < x.thick := by
      intro x hx
      by_contra hcon
      have h0 : x.thick = 0 := by have := hn x hx; omega
      rw [c27_zero_never_ends hr (n + 1) l t b hs hb hn ⟨x, hx, h0⟩] at h
      simp at h
    rw [sliceAll] at h
    cases hsl : (slicePass ratio none l).2 with
    | true =>
      rw [hsl, if_pos rfl] at h
      obtain ⟨j1, j2, j3, j4⟩ := ih _ l' t b p1 hb (p3 hn) h
      exact ⟨j1, p2.trans j2, j3, j4⟩
    | false =>
      rw [hsl] at h
      simp only [Bool.false_eq_true, if_false, Option.some.injEq] at h
      rw [q3 hsl] at h
      subst h
      exact ⟨hs, List.Sublist.refl _, hz, (pass_smooth l none hsl hz).1⟩

theorem pass_pos {ratio : ℚ} (hr : 3 ≤ ratio) (l : List Range) : ∀ prev,
    (∀ p, prev = some p → 1 ≤ p.thick) → (∀ x ∈ l, 1 ≤ x.thick) →
    ∀ x ∈ (slicePass ratio prev l).1, 1 ≤ x.thick := by
  have key : ∀ c p : Int, 1 ≤ p → over ratio c p = true → 4 ≤ c := by
    intro c p hp ho
    rw [over_iff (by omega)] at ho
    have hp' : (1 : ℚ) ≤ p := by exact_mod_cast hp
    have : (3 : ℚ) < c := by nlinarith
    have : (3 : Int) < c := by exact_mod_cast this
    omega
  induction l with
  | nil => intro prev _ _ x hx; simp [slicePass] at hx
  | cons cur rest ih =>
    intro prev hp hl x hx
    obtain ⟨s1, s2, last, e1, e2, e3, e⟩ := pass_cons ratio prev cur rest
    have hpieces := pieces_pos (s1 := s1) (s2 := s2) (hl cur (by simp))
      (by
        intro h
        rw [e1] at h
        cases prev with
        | none => simp at h
        | some p => exact key _ _ (hp p rfl) h)
      (by
        intro h
        rw [e2] at h
        cases rest with
        | nil => simp at h
        | cons n _ => exact key _ _ (hl n (by simp)) h)
    rw [e] at hx
    simp only [List.mem_append] at hx
    rcases hx with hx | hx
    · exact hpieces x hx
    · refine ih (some last) ?_ (fun x hx => hl x (by simp [hx])) x hx
      intro p hp
      injection hp with hp
      subst hp
      exact hpieces _ (List.mem_of_getLast? e3)

theorem stack_length {l : List Range} : ∀ {t b : Int}, Stack l t b → (∀ x ∈ l, 1 ≤ x.thick) →
    (l.length : Int) ≤ t - b := by
  induction l with
  | nil => intro t b h _; simp [Stack] at h; simp; omega
  | cons r l ih =>
    intro t b ⟨h1, h2⟩ hp
    have := ih h2 (fun x hx => hp x (by simp [hx]))
    have h3 := hp r (by simp)
    unfold Range.thick at h3
    simp only [List.length_cons]
    push_cast
    omega

/-- **C27, ending.** For every ratio of three or more and every contiguous stack of valid ranges
slicing ends (so that everything in `c27_slice_partial` holds). -/
theorem c27_ends_partial {ratio : ℚ} (hr : 3 ≤ ratio) (l : List Range) (t b : Int) (hs : Stack l t b)
    (hp : ∀ x ∈ l, 0 < x.thick) : ∃ fuel l', sliceAll ratio fuel l = some l' := by
  have main : ∀ (d : Nat) (l : List Range), Stack l t b → (∀ x ∈ l, 1 ≤ x.thick) →
      t - b ≤ (l.length : Int) + d → ∃ fuel l', sliceAll ratio fuel l = some l' := by
    intro d
    induction d with
    | zero =>
      intro l hs hp hd
      refine ⟨1, (slicePass ratio none l).1, ?_⟩
      cases hsl : (slicePass ratio none l).2 with
      | true =>
        exfalso
        obtain ⟨p1, -, -⟩ := pass_stack ratio l none t b hs
        have h1 := stack_length p1 (pass_pos hr l none (by simp) hp)
        have h2 := (pass_same ratio l none).2.1 hsl
        omega
      | false => simp [sliceAll, hsl]
    | succ d ih =>
      intro l hs hp hd
      cases hsl : (slicePass ratio none l).2 with
      | true =>
        obtain ⟨p1, -, -⟩ := pass_stack ratio l none t b hs
        have h2 := (pass_same ratio l none).2.1 hsl
        obtain ⟨fuel, l', h⟩ := ih _ p1 (pass_pos hr l none (by simp) hp) (by push_cast at hd; omega)
        exact ⟨fuel + 1, l', by simp [sliceAll, hsl, h]⟩
      | false => exact ⟨1, (slicePass ratio none l).1, by simp [sliceAll, hsl]⟩
  exact main (t - b).toNat l hs hp (by omega)

theorem over_of {ratio : ℚ} {c p : Int} (hp : 0 < p) (h : ratio * p < c) : over ratio c p = true :=
  (over_iff hp).2 h

/-- **C27 is false of the code** for ratios below two: a layer of two units between two layers of one
unit is sliced for ever, at any height. -/
theorem c27_two_refuted {ratio : ℚ} (h1 : 1 < ratio) (h2 : ratio < 2) (h : Int) (fuel : Nat) :
    sliceAll ratio fuel [⟨h + 3, h + 2⟩, ⟨h + 2, h⟩, ⟨h, h - 1⟩] = none := by
  have hr : (0 : ℚ) < ratio := by linarith
  cases fuel with
  | zero => rfl
  | succ n =>
    have hst : Stack [⟨h + 3, h + 2⟩, ⟨h + 2, h⟩, ⟨h, h - 1⟩] (h + 3) (h - 1) := by simp [Stack]
    have hnn : ∀ x ∈ ([⟨h + 3, h + 2⟩, ⟨h + 2, h⟩, ⟨h, h - 1⟩] : List Range), 0 ≤ x.thick := by
      intro x hx
      simp at hx
      rcases hx with rfl | rfl | rfl <;> simp [Range.thick]
    obtain ⟨p1, p2, p3⟩ := pass_stack ratio _ none _ _ hst
    have o11 : over ratio 1 2 = false := by
      unfold over
      rw [if_neg (by decide), decide_eq_false_iff_not]
      push_cast
      linarith
    have o21 : over ratio 2 1 = true := over_of (by decide) (by push_cast; linarith)
    have t1 : (⟨h + 3, h + 2⟩ : Range).thick = 1 := by simp [Range.thick]
    have t2 : (⟨h + 2, h⟩ : Range).thick = 2 := by simp [Range.thick]
    have t3 : (⟨h, h - 1⟩ : Range).thick = 1 := by simp [Range.thick]
    have m1 : round (((h + 2 + h : Int) : ℚ) / 2) = h + 1 := by
      rw [← round_int (h + 1)]; congr 1; push_cast; ring
    have sl : slice ⟨h + 2, h⟩ = (⟨h + 2, h + 1⟩, ⟨h + 1, h⟩) := by simp only [slice, m1]
    have hz : ∃ x ∈ (slicePass ratio none [⟨h + 3, h + 2⟩, ⟨h + 2, h⟩, ⟨h, h - 1⟩]).1, x.thick = 0 := by
      have e : ∃ tl, (slicePass ratio none [⟨h + 3, h + 2⟩, ⟨h + 2, h⟩, ⟨h, h - 1⟩]).1 =
          ⟨h + 3, h + 2⟩ :: ⟨h + 2, h + 1⟩ :: (slice ⟨h + 1, h⟩).1 :: (slice ⟨h + 1, h⟩).2 :: tl := by
        rw [slicePass]
        simp only [t1, t2, o11, cut]
        rw [slicePass]
        simp only [t1, t2, t3, o21, cut, if_true, sl, Bool.false_eq_true, if_false, List.nil_append, List.cons_append,
          List.append_assoc]
        exact ⟨_, rfl⟩
      obtain ⟨tl, e⟩ := e
      rw [e]
      have hm := round_half (h + 1 + h)
      by_cases hh : 0 ≤ h + 1 + h
      · refine ⟨(slice ⟨h + 1, h⟩).1, by simp, ?_⟩
        rw [if_pos hh] at hm
        simp only [slice, Range.thick, hm]
        omega
      · refine ⟨(slice ⟨h + 1, h⟩).2, by simp, ?_⟩
        rw [if_neg hh] at hm
        simp only [slice, Range.thick, hm]
        omega
    rw [sliceAll]
    by_cases hsl : (slicePass ratio none [⟨h + 3, h + 2⟩, ⟨h + 2, h⟩, ⟨h, h - 1⟩]).2 = true
    · simp only [hsl, if_true]
      exact c27_zero_never_ends hr n _ _ _ p1 (by omega) (p3 hnn) hz
    · exfalso
      have := (pass_same ratio [⟨h + 3, h + 2⟩, ⟨h + 2, h⟩, ⟨h, h - 1⟩] none).2.2 (by simpa using hsl)
      rw [this] at hz
      obtain ⟨x, hx, hx0⟩ := hz
      simp at hx
      rcases hx with rfl | rfl | rfl <;> simp [Range.thick] at hx0

/-- **C27 is false of the code** for all ratios below three (the default is two): a layer of three
units between two layers of one unit, below height zero, is sliced for ever. -/
theorem c27_three_refuted {ratio : ℚ} (h1 : 1 < ratio) (h3 : ratio < 3) (h : Int) (hneg : h < -1)
    (fuel : Nat) :
    sliceAll ratio fuel [⟨h + 4, h + 3⟩, ⟨h + 3, h⟩, ⟨h, h - 1⟩] = none := by
  have hr : (0 : ℚ) < ratio := by linarith
  cases fuel with
  | zero => rfl
  | succ n =>
    have hst : Stack [⟨h + 4, h + 3⟩, ⟨h + 3, h⟩, ⟨h, h - 1⟩] (h + 4) (h - 1) := by simp [Stack]
    have hnn : ∀ x ∈ ([⟨h + 4, h + 3⟩, ⟨h + 3, h⟩, ⟨h, h - 1⟩] : List Range), 0 ≤ x.thick := by
      intro x hx
      simp at hx
      rcases hx with rfl | rfl | rfl <;> simp [Range.thick]
    obtain ⟨p1, p2, p3⟩ := pass_stack ratio _ none _ _ hst
    have o13 : over ratio 1 3 = false := by
      unfold over
      rw [if_neg (by decide), decide_eq_false_iff_not]
      push_cast
      linarith
    have o31 : over ratio 3 1 = true := over_of (by decide) (by push_cast; linarith)
    have t1 : (⟨h + 4, h + 3⟩ : Range).thick = 1 := by simp [Range.thick]
    have t2 : (⟨h + 3, h⟩ : Range).thick = 3 := by simp [Range.thick]
    have t3 : (⟨h, h - 1⟩ : Range).thick = 1 := by simp [Range.thick]
    have m1 : round (((h + 3 + h : Int) : ℚ) / 2) = h + 1 := by
      rw [round_half, if_neg (by omega)]; omega
    have m2 : round (((h + 1 + h : Int) : ℚ) / 2) = h := by
      rw [round_half, if_neg (by omega)]; omega
    have sl : slice ⟨h + 3, h⟩ = (⟨h + 3, h + 1⟩, ⟨h + 1, h⟩) := by simp only [slice, m1]
    have sl2 : slice ⟨h + 1, h⟩ = (⟨h + 1, h⟩, ⟨h, h⟩) := by simp only [slice, m2]
    have e : ∃ tl, (slicePass ratio none [⟨h + 4, h + 3⟩, ⟨h + 3, h⟩, ⟨h, h - 1⟩]).1 =
        ⟨h + 4, h + 3⟩ :: ⟨h + 3, h + 1⟩ :: ⟨h + 1, h⟩ :: ⟨h, h⟩ :: tl := by
      rw [slicePass]
      simp only [t1, t2, o13, cut]
      rw [slicePass]
      simp only [t1, t2, t3, o31, cut, if_true, sl, sl2, Bool.false_eq_true, if_false, List.nil_append, List.cons_append,
        List.append_assoc]
      exact ⟨_, rfl⟩
    obtain ⟨tl, e⟩ := e
    have hz : ∃ x ∈ (slicePass ratio none [⟨h + 4, h + 3⟩, ⟨h + 3, h⟩, ⟨h, h - 1⟩]).1, x.thick = 0 :=
      ⟨⟨h, h⟩, by rw [e]; simp, by simp [Range.thick]⟩
    rw [sliceAll]
    by_cases hsl : (slicePass ratio none [⟨h + 4, h + 3⟩, ⟨h + 3, h⟩, ⟨h, h - 1⟩]).2 = true
    · simp only [hsl, if_true]
      exact c27_zero_never_ends hr n _ _ _ p1 (by omega) (p3 hnn) hz
    · exfalso
      have := (pass_same ratio [⟨h + 4, h + 3⟩, ⟨h + 3, h⟩, ⟨h, h - 1⟩] none).2.2 (by simpa using hsl)
      rw [this] at e
      simp at e

example : Stack [⟨20, 15⟩, ⟨15, 14⟩, ⟨14, 0⟩] 20 0 ∧
    ∀ x ∈ ([⟨20, 15⟩, ⟨15, 14⟩, ⟨14, 0⟩] : List Range), 0 < x.thick := by
  refine ⟨by simp [Stack], by decide⟩

example : sliceAll 3 4 [⟨20, 15⟩, ⟨15, 14⟩, ⟨14, 0⟩] =
    some [⟨20, 18⟩, ⟨18, 15⟩, ⟨15, 14⟩, ⟨14, 11⟩, ⟨11, 7⟩, ⟨7, 0⟩] := by decide +kernel

end Ecad.Geom
