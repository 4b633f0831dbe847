import Verif.Thermal.TransientModel
import Mathlib.Tactic.Linarith
import Mathlib.Tactic.Ring
import Mathlib.Tactic.Positivity
import Mathlib.Tactic.FieldSimp
/-!
C97: a transient analysis samples one trajectory that starts at the temperature of the environment.
-/
namespace Ecad.Trans

/-! ### specification -/

/-- Samples of a list of observations: those in the window that are more than the interval after the last one (or
after time zero) -/
def pick {A : Type} (interval lo hi : ℚ) : ℚ → List (ℚ × A) → List (ℚ × A)
  | _, [] => []
  | last, o :: os =>
    if lo ≤ o.1 ∧ o.1 ≤ hi ∧ interval < o.1 - last then o :: pick interval lo hi o.1 os
    else pick interval lo hi last os

/-- the temperature of a node in the unit of the settings -/
def inUnit (toC : Bool) (t : ℚ) : ℚ := if toC then t - 27315 / 100 else t

/-- what is recorded of an observation -/
def recorded (set : Settings) (o : Obs) : Sample := (o.1, set.probs.map fun p => inUnit set.celsius (o.2.getD p 0))

/-- The builder makes networks of the model's size, the integrators keep it, the probes are nodes, interval
and window are proper. -/
structure Works {N : Type} (build : State → Option N) (S : Scheme N) (set : Settings) (n : Nat) : Prop where
  build : ∀ x : State, x.length = n → ∃ net, build x = some net ∧ S.size net = n
  stepBy : ∀ net t dt x, x.length = n → (S.stepBy net t dt x).length = n
  adapt : ∀ net t dur dt x, x.length = n → ∀ o ∈ S.adapt net t dur dt x, o.2.length = n
  interval : 0 < set.interval
  window : 0 ≤ set.window
  duration : 0 < set.duration
  probs : ∀ p ∈ set.probs, p < n

/-- The result reports these observations: success, the samples, and the extremes of all temperatures in them
(`big` at most where there are none). -/
def Reports (big : ℚ) (set : Settings) (tr : List Obs) (out : Out) : Prop :=
  out.samples = (pick set.interval (set.duration - set.window) set.duration 0 tr).map (recorded set) ∧
  (∀ s ∈ out.samples, ∀ v ∈ s.2, out.lo ≤ v ∧ v ≤ out.hi) ∧
  (out.lo = big ∨ ∃ s ∈ out.samples, out.lo ∈ s.2) ∧ (out.hi = -big ∨ ∃ s ∈ out.samples, out.hi ∈ s.2) ∧
  out.lo ≤ big ∧ -big ≤ out.hi

/-! ### proof -/

section pick
variable {A B : Type} {interval lo hi : ℚ}

/-- time of the last sample -/
def lastOf (last : ℚ) (l : List (ℚ × A)) : ℚ := (l.getLast?.map Prod.fst).getD last

theorem lastOf_cons (last : ℚ) (o : ℚ × A) (l : List (ℚ × A)) : lastOf last (o :: l) = lastOf o.1 l := by
  cases l with
  | nil => rfl
  | cons a l => simp [lastOf, List.getLast?_cons_cons, List.getLast?_eq_getLast_of_ne_nil]

theorem lastOf_append (last : ℚ) (a b : List (ℚ × A)) : lastOf last (a ++ b) = lastOf (lastOf last a) b := by
  induction a generalizing last with
  | nil => rfl
  | cons o a ih => rw [List.cons_append, lastOf_cons, lastOf_cons, ih]

theorem pick_append (last : ℚ) (a b : List (ℚ × A)) : pick interval lo hi last (a ++ b) =
    pick interval lo hi last a ++ pick interval lo hi (lastOf last (pick interval lo hi last a)) b := by
  induction a generalizing last with
  | nil => rfl
  | cons o a ih =>
    simp only [List.cons_append, pick]
    split
    · rw [ih, lastOf_cons, List.cons_append]
    · exact ih last

theorem pick_map (f : ℚ × A → ℚ × B) (hf : ∀ o, (f o).1 = o.1) (last : ℚ) (a : List (ℚ × A)) :
    pick interval lo hi last (a.map f) = (pick interval lo hi last a).map f := by
  induction a generalizing last with
  | nil => rfl
  | cons o a ih =>
    simp only [List.map_cons, pick, hf]
    split
    · rw [ih, List.map_cons]
    · exact ih last

theorem lastOf_map (f : ℚ × A → ℚ × B) (hf : ∀ o, (f o).1 = o.1) (last : ℚ) (a : List (ℚ × A)) :
    lastOf last (a.map f) = lastOf last a := by
  induction a generalizing last with
  | nil => rfl
  | cons o a ih => rw [List.map_cons, lastOf_cons, lastOf_cons, ih, hf]

/-- an observation made twice counts once -/
theorem pick_twice (h0 : 0 ≤ interval) (last : ℚ) (a : List (ℚ × A)) (o : ℚ × A) (b : List (ℚ × A)) :
    pick interval lo hi last (a ++ o :: o :: b) = pick interval lo hi last (a ++ o :: b) := by
  rw [pick_append, pick_append]
  congr 1
  by_cases h : lo ≤ o.1 ∧ o.1 ≤ hi ∧ interval < o.1 - lastOf last (pick interval lo hi last a)
  · simp only [pick, if_pos h]
    rw [if_neg]
    rintro ⟨-, -, h⟩
    linarith
  · simp only [pick, if_neg h]

end pick

theorem sampler_run (out : State → Res (List ℚ)) (val : State → List ℚ) (os : List Obs)
    (ho : ∀ o ∈ os, out o.2 = .ok (val o.2)) (s : Sampler) (last : ℚ) (hc : s.count = s.prev - last) :
    ∃ s', s.run out os = .ok s' ∧
      s'.samples = s.samples ++ (pick s.interval s.start s.stop last os).map fun o => (o.1, val o.2) := by
  induction os generalizing s last with
  | nil => exact ⟨s, rfl, by simp [pick]⟩
  | cons o os ih =>
    have hos : ∀ o ∈ os, out o.2 = .ok (val o.2) := fun x hx => ho x (List.mem_cons_of_mem _ hx)
    have hoo := ho o (by simp)
    rw [Sampler.run, Sampler.observe, pick]
    by_cases hw : s.start ≤ o.1 ∧ o.1 ≤ s.stop
    · rw [if_pos hw]
      have e : s.count + (o.1 - s.prev) = o.1 - last := by rw [hc]; ring
      by_cases hg : s.count + (o.1 - s.prev) > s.interval
      · simp only
        rw [if_pos hg, hoo]
        simp only [Res.bind_ok]
        obtain ⟨s', h1, h2⟩ := ih hos { s with samples := s.samples ++ [(o.1, val o.2)], count := 0, prev := o.1 } o.1
          (by simp)
        refine ⟨s', h1, ?_⟩
        rw [h2, if_pos ⟨hw.1, hw.2, by rw [← e]; exact hg⟩]
        simp [List.append_assoc]
      · simp only
        rw [if_neg hg]
        simp only [Res.bind_ok]
        obtain ⟨s', h1, h2⟩ := ih hos { s with count := s.count + (o.1 - s.prev), prev := o.1 } last (by simp only; rw [e])
        refine ⟨s', h1, ?_⟩
        rw [h2, if_neg]
        rintro ⟨-, -, h⟩
        rw [← e] at h
        exact hg h
    · rw [if_neg hw]
      simp only [Res.bind_ok]
      obtain ⟨s', h1, h2⟩ := ih hos s last hc
      refine ⟨s', h1, ?_⟩
      rw [h2, if_neg]
      rintro ⟨h1, h2, -⟩
      exact hw ⟨h1, h2⟩

theorem probe_ok (x : State) (ps : List Nat) (h : ∀ p ∈ ps, p < x.length) :
    probe x ps = .ok (ps.map fun p => x.getD p 0) := by
  induction ps with
  | nil => rfl
  | cons p ps ih =>
    have hp := h p (by simp)
    rw [probe, List.getElem?_eq_getElem hp, ih fun q hq => h q (List.mem_cons_of_mem _ hq)]
    simp [List.getD_eq_getElem?_getD, hp]

theorem new_ok {set : Settings} (hi : 0 < set.interval) (hw : 0 ≤ set.window) (samples : List Sample) :
    Sampler.new set samples =
      .ok ⟨set.duration - set.window, set.duration, set.interval, lastOf 0 samples, 0, samples⟩ := by
  unfold Sampler.new
  rw [if_neg]
  · rfl
  · rintro (h | h)
    · linarith
    · have : 0 ≤ (set.duration - (set.duration - set.window)) / set.interval := by
        apply div_nonneg _ hi.le
        linarith
      linarith

/-- recorded before conversion -/
def raw (set : Settings) (o : Obs) : Sample := (o.1, set.probs.map fun p => o.2.getD p 0)

section
variable {N : Type} {build : State → Option N} {S : Scheme N} {set : Settings} {n : Nat}

theorem constFrom_length (f : ℚ → State → State) (hf : ∀ t x, x.length = n → (f t x).length = n) (t0 dt : ℚ) (m : Nat) :
    ∀ (k : Nat) (x : State), x.length = n → ∀ o ∈ constFrom f t0 dt k x m, o.2.length = n := by
  induction m with
  | zero => intro k x hx o ho; simp [constFrom] at ho; subst ho; exact hx
  | succ m ih =>
    intro k x hx o ho
    rw [constFrom, List.mem_cons] at ho
    rcases ho with rfl | ho
    · exact hx
    · exact ih (k + 1) _ (hf _ _ hx) o ho

theorem observed_length (W : Works build S set n) (net : N) (t0 dur dt : ℚ) (x : State) (hx : x.length = n) :
    ∀ o ∈ observed S set.adaptive net t0 dur dt x, o.2.length = n := by
  intro o ho
  unfold observed at ho
  split at ho
  · rw [List.mem_cons] at ho
    rcases ho with rfl | ho
    · exact hx
    · split at ho
      · exact W.adapt _ _ _ _ _ hx o ho
      · simp at ho
  · exact constFrom_length _ (fun t x hx => W.stepBy _ _ _ _ hx) t0 dt _ 0 x hx o ho

theorem observed_head (a : Bool) (net : N) (t0 dur dt : ℚ) (x : State) :
    ∃ os, observed S a net t0 dur dt x = (t0, x) :: os := by
  unfold observed
  split
  · exact ⟨_, rfl⟩
  · split
    · cases ⌊dur / dt⌋₊ with
      | zero => exact ⟨[], by simp [constFrom]⟩
      | succ m => exact ⟨_, by rw [constFrom, Nat.cast_zero, zero_mul, add_zero]⟩
    · exact ⟨[], by simp [constFrom]⟩

/-- the state at the end -/
def endState (x : State) (os : List Obs) : State := (os.getLast?.map Prod.snd).getD x

theorem piece_ok (W : Works build S set n) (dur dt : ℚ) (st : St) (hx : st.temps.length = n) (tr : List Obs)
    (hs : st.samples = (pick set.interval (set.duration - set.window) set.duration 0 tr).map (raw set)) :
    ∃ net st', build st.temps = some net ∧ piece build S set dur dt st = .ok st' ∧ st'.time = st.time ∧
      st'.temps = endState st.temps (observed S set.adaptive net st.time dur dt st.temps) ∧ st'.temps.length = n ∧
      st'.steps = st.steps + ((observed S set.adaptive net st.time dur dt st.temps).length - 1) ∧
      st'.samples = (pick set.interval (set.duration - set.window) set.duration 0
        (tr ++ observed S set.adaptive net st.time dur dt st.temps)).map (raw set) := by
  obtain ⟨net, hb, hsz⟩ := W.build _ hx
  have hol := observed_length W net st.time dur dt st.temps hx
  obtain ⟨s', h1, h2⟩ := sampler_run (probe · set.probs) (fun x => set.probs.map fun p => x.getD p 0)
    (observed S set.adaptive net st.time dur dt st.temps)
    (fun o ho => probe_ok _ _ fun p hp => by rw [hol o ho]; exact W.probs p hp)
    ⟨set.duration - set.window, set.duration, set.interval, lastOf 0 st.samples, 0, st.samples⟩ (lastOf 0 st.samples)
    (by simp)
  refine ⟨net, { st with temps := endState st.temps (observed S set.adaptive net st.time dur dt st.temps),
                         samples := s'.samples,
                         steps := st.steps + ((observed S set.adaptive net st.time dur dt st.temps).length - 1) },
    hb, ?_, rfl, rfl, ?_, rfl, ?_⟩
  · unfold piece
    simp only [hb, new_ok W.interval W.window, Res.bind_ok, hx, hsz, ne_eq, not_true_eq_false, if_false, h1]
    rfl
  · simp only [endState]
    cases hl : (observed S set.adaptive net st.time dur dt st.temps).getLast? with
    | none => simpa using hx
    | some o => simpa using hol o (List.mem_of_getLast? hl)
  · simp only [h2, hs]
    rw [pick_append, List.map_append, lastOf_map (raw set) (fun o => rfl)]
    rfl

theorem report_ok (set : Settings) (hp : set.probs ≠ []) (os : List Obs) (lo hi : ℚ) :
    ∃ lo' hi', report set.celsius (os.map (raw set)) (lo, hi) = .ok ((lo', hi'), os.map (recorded set)) ∧
      lo' ≤ lo ∧ hi ≤ hi' ∧ (∀ s ∈ os.map (recorded set), ∀ v ∈ s.2, lo' ≤ v ∧ v ≤ hi') ∧
      (lo' = lo ∨ ∃ s ∈ os.map (recorded set), lo' ∈ s.2) ∧ (hi' = hi ∨ ∃ s ∈ os.map (recorded set), hi' ∈ s.2) := by
  have hmin : ∀ (l : List ℚ) (v : ℚ), l.foldl min v ≤ v ∧ (∀ u ∈ l, l.foldl min v ≤ u) ∧ (l.foldl min v = v ∨ l.foldl min v ∈ l) := by
    intro l
    induction l with
    | nil => intro v; simp
    | cons a l ih =>
      intro v
      obtain ⟨i1, i2, i3⟩ := ih (min v a)
      rw [List.foldl_cons]
      refine ⟨i1.trans (min_le_left _ _), ?_, ?_⟩
      · intro u hu
        rcases List.mem_cons.1 hu with rfl | hu
        · exact i1.trans (min_le_right _ _)
        · exact i2 u hu
      · rcases i3 with i3 | i3
        · rw [i3]
          rcases min_choice v a with h | h <;> rw [h] <;> simp
        · exact Or.inr (List.mem_cons_of_mem _ i3)
  have hmax : ∀ (l : List ℚ) (v : ℚ), v ≤ l.foldl max v ∧ (∀ u ∈ l, u ≤ l.foldl max v) ∧ (l.foldl max v = v ∨ l.foldl max v ∈ l) := by
    intro l
    induction l with
    | nil => intro v; simp
    | cons a l ih =>
      intro v
      obtain ⟨i1, i2, i3⟩ := ih (max v a)
      rw [List.foldl_cons]
      refine ⟨(le_max_left _ _).trans i1, ?_, ?_⟩
      · intro u hu
        rcases List.mem_cons.1 hu with rfl | hu
        · exact (le_max_right _ _).trans i1
        · exact i2 u hu
      · rcases i3 with i3 | i3
        · rw [i3]
          rcases max_choice v a with h | h <;> rw [h] <;> simp
        · exact Or.inr (List.mem_cons_of_mem _ i3)
  induction os generalizing lo hi with
  | nil => exact ⟨lo, hi, rfl, le_refl _, le_refl _, by simp, Or.inl rfl, Or.inl rfl⟩
  | cons o os ih =>
    have hv : (if set.celsius then (raw set o).2.map celsius else (raw set o).2) = (recorded set o).2 := by
      unfold raw recorded inUnit celsius
      cases set.celsius <;> simp
    obtain ⟨v, ws, hvw⟩ : ∃ v ws, (recorded set o).2 = v :: ws := by
      cases hq : set.probs with
      | nil => exact absurd hq hp
      | cons p ps => exact ⟨_, _, by unfold recorded; rw [hq]; rfl⟩
    obtain ⟨lo', hi', h1, h2, h3, h4, h5, h6⟩ := ih (min lo (ws.foldl min v)) (max hi (ws.foldl max v))
    obtain ⟨a1, a2, a3⟩ := hmin ws v
    obtain ⟨b1, b2, b3⟩ := hmax ws v
    refine ⟨lo', hi', ?_, h2.trans (min_le_left _ _), (le_max_left _ _).trans h3, ?_, ?_, ?_⟩
    · rw [List.map_cons, report]
      have e : raw set o = ((raw set o).1, (raw set o).2) := rfl
      simp only [hv, hvw, h1, Res.bind_ok, List.map_cons]
      have : recorded set o = ((raw set o).1, v :: ws) := by rw [← hvw]; rfl
      rw [this]
    · intro s hs u hu
      rw [List.map_cons, List.mem_cons] at hs
      rcases hs with rfl | hs
      · rw [hvw] at hu
        have l1 := h2.trans (min_le_right _ _)
        have l2 := (le_max_right _ _).trans h3
        rcases List.mem_cons.1 hu with rfl | hu
        · exact ⟨l1.trans a1, b1.trans l2⟩
        · exact ⟨l1.trans (a2 u hu), (b2 u hu).trans l2⟩
      · exact h4 s hs u hu
    · rcases h5 with h5 | ⟨s, hs, h5⟩
      · rcases min_choice lo (ws.foldl min v) with h | h
        · exact Or.inl (h5.trans h)
        · refine Or.inr ⟨recorded set o, by simp, ?_⟩
          rw [h5, h, hvw]
          rcases a3 with a3 | a3
          · rw [a3]; simp
          · exact List.mem_cons_of_mem _ a3
      · exact Or.inr ⟨s, by rw [List.map_cons]; exact List.mem_cons_of_mem _ hs, h5⟩
    · rcases h6 with h6 | ⟨s, hs, h6⟩
      · rcases max_choice hi (ws.foldl max v) with h | h
        · exact Or.inl (h6.trans h)
        · refine Or.inr ⟨recorded set o, by simp, ?_⟩
          rw [h6, h, hvw]
          rcases b3 with b3 | b3
          · rw [b3]; simp
          · exact List.mem_cons_of_mem _ b3
      · exact Or.inr ⟨s, by rw [List.map_cons]; exact List.mem_cons_of_mem _ hs, h6⟩

theorem finish_ok (big : ℚ) (hp : set.probs ≠ []) (st : St) (tr : List Obs)
    (hs : st.samples = (pick set.interval (set.duration - set.window) set.duration 0 tr).map (raw set)) :
    ∃ out, finish big set st = .ok out ∧ out.ok = decide (0 < st.steps) ∧ Reports big set tr out := by
  obtain ⟨lo, hi, h1, h2, h3, h4, h5, h6⟩ := report_ok set hp
    (pick set.interval (set.duration - set.window) set.duration 0 tr) big (-big)
  refine ⟨⟨decide (0 < st.steps), lo, hi, _⟩, ?_, rfl, rfl, h4, h5, h6, h2, h3⟩
  unfold finish
  rw [hs, h1]
  rfl

/-- observations of one step, starting from a state -/
def chunk (build : State → Option N) (S : Scheme N) (set : Settings) (t : ℚ) (x : State) : List Obs :=
  match build x with
  | some net => observed S set.adaptive net t set.step set.interval x
  | none => []

/-- states at the beginning of the steps -/
def starts (build : State → Option N) (S : Scheme N) (set : Settings) (n : Nat) : Nat → State
  | 0 => List.replicate n set.envT
  | i + 1 => endState (starts build S set n i) (chunk build S set (i * set.step) (starts build S set n i))

/-- all observations of the first steps -/
def trace (build : State → Option N) (S : Scheme N) (set : Settings) (n m : Nat) : List Obs :=
  (List.range m).flatMap fun (i : Nat) => chunk build S set (i * set.step) (starts build S set n i)

theorem trace_succ (m : Nat) : trace build S set n (m + 1) =
    trace build S set n m ++ chunk build S set (m * set.step) (starts build S set n m) := by
  simp [trace, List.range_succ]

/-- steps taken -/
def taken (build : State → Option N) (S : Scheme N) (set : Settings) (n m : Nat) : Nat :=
  ((List.range m).map fun (i : Nat) => (chunk build S set (i * set.step) (starts build S set n i)).length - 1).sum

theorem loop_ok (W : Works build S set n) (hstep : 0 < set.step) (m fuel : Nat) :
    ∀ (i : Nat) (st : St), i + fuel = m → st.time = i * set.step → st.temps = starts build S set n i →
      st.temps.length = n → st.steps = taken build S set n i →
      st.samples = (pick set.interval (set.duration - set.window) set.duration 0 (trace build S set n i)).map (raw set) →
      set.duration ≤ m * set.step → (∀ j : Nat, j < m → (j : ℚ) * set.step < set.duration) → ∀ more,
      ∃ st', loop build S set (fuel + more) st = some (.ok st') ∧ st'.temps = starts build S set n m ∧
        st'.steps = taken build S set n m ∧
        st'.samples = (pick set.interval (set.duration - set.window) set.duration 0 (trace build S set n m)).map (raw set) := by
  induction fuel with
  | zero =>
    intro i st hi ht hx hl hk hs hm _ more
    have : i = m := by omega
    subst this
    refine ⟨st, ?_, hx, hk, hs⟩
    cases more with
    | zero => rw [loop, if_neg (by rw [ht]; linarith)]
    | succ more => rw [Nat.zero_add, loop, if_neg (by rw [ht]; linarith)]
  | succ fuel ih =>
    intro i st hi ht hx hl hk hs hm hlt more
    obtain ⟨net, st', hb, p1, p2, p3, p4, p5, p6⟩ := piece_ok W set.step set.interval st hl _ hs
    rw [Nat.succ_add, loop, if_pos (by rw [ht]; exact hlt i (by omega))]
    simp only [p1]
    have hc : chunk build S set (i * set.step) (starts build S set n i) =
        observed S set.adaptive net st.time set.step set.interval st.temps := by
      unfold chunk
      rw [← hx, hb, ht]
    obtain ⟨st2, q1, q2⟩ := ih (i + 1) { st' with time := st'.time + set.step } (by omega)
      (by simp only; rw [p2, ht]; push_cast; ring)
      (by simp only; rw [p3, starts, hc, hx]) p4
      (by
        simp only
        rw [p5, hk]
        unfold taken
        rw [List.range_succ, List.map_append, List.sum_append]
        simp only [List.map_cons, List.map_nil, List.sum_cons, List.sum_nil, hc, Nat.add_zero])
      (by simp only; rw [p6, trace_succ, hc]) hm hlt more
    exact ⟨st2, q1, q2⟩

theorem solve_ok (W : Works build S set n) (big : ℚ) (htd : set.tempDep = true) (hp : set.probs ≠ []) (hstep : 0 < set.step)
    (m : Nat) (hm : set.duration ≤ m * set.step) (hlt : ∀ j : Nat, j < m → (j : ℚ) * set.step < set.duration) (fuel : Nat)
    (hf : m ≤ fuel) :
    ∃ out, solve build S n big set fuel = some (.ok out) ∧ out.ok = decide (0 < taken build S set n m) ∧
      Reports big set (trace build S set n m) out := by
  obtain ⟨more, rfl⟩ := Nat.exists_eq_add_of_le hf
  obtain ⟨st, h1, h2, h3, h4⟩ := loop_ok W hstep m m 0 (St.init n set) (by omega) (by simp [St.init]) rfl
    (by simp [St.init]) rfl rfl hm hlt more
  obtain ⟨out, f1, f2, f3⟩ := finish_ok big hp st _ h4
  refine ⟨out, ?_, by rw [f2, h3], f3⟩
  unfold solve
  rw [if_pos htd, h1]
  simp only [Option.map_some, Res.bind_ok, f1]

/-- the number of steps -/
theorem ceil_spec (set : Settings) (hstep : 0 < set.step) :
    set.duration ≤ (⌈set.duration / set.step⌉₊ : ℚ) * set.step ∧
      ∀ j : Nat, j < ⌈set.duration / set.step⌉₊ → (j : ℚ) * set.step < set.duration := by
  constructor
  · have := Nat.le_ceil (set.duration / set.step)
    rwa [div_le_iff₀ hstep] at this
  · intro j hj
    have := Nat.lt_ceil.1 hj
    rwa [lt_div_iff₀ hstep] at this

theorem constFrom_eq (f : ℚ → State → State) (t0 dt : ℚ) (y : Nat → State) (m : Nat) :
    ∀ k, (∀ j, j < k + m → y (j + 1) = f (t0 + j * dt) (y j)) → constFrom f t0 dt k (y k) m =
      (List.range (m + 1)).map fun (j : Nat) => (t0 + ((k + j : Nat) : ℚ) * dt, y (k + j)) := by
  induction m with
  | zero => intro k _; simp [constFrom]
  | succ m ih =>
    intro k h
    rw [constFrom, ← h k (by omega), ih (k + 1) (fun j hj => h j (by omega)), List.range_succ_eq_map (n := m + 1),
      List.map_cons, List.map_map]
    congr 1
    apply List.map_congr_left
    intro j _
    have e : k + 1 + j = k + (j + 1) := by omega
    simp only [Function.comp, Nat.succ_eq_add_one, e]

/-- state at the beginning of the present step and present state, after `j` small steps, `k` to a step -/
def fine (build : State → Option N) (S : Scheme N) (set : Settings) (n k : Nat) : Nat → State × State
  | 0 => (List.replicate n set.envT, List.replicate n set.envT)
  | j + 1 =>
    let p := fine build S set n k j
    let y := match build p.1 with
      | some net => S.stepBy net (j * set.interval) set.interval p.2
      | none => p.2
    if (j + 1) % k = 0 then (y, y) else (p.1, y)

theorem fine_anchor (k : Nat) (hk : 0 < k) (i : Nat) : ∀ j, j < k →
    (fine build S set n k (i * k + j)).1 = (fine build S set n k (i * k)).2 := by
  intro j
  induction j with
  | zero =>
    intro _
    rw [Nat.add_zero]
    rcases Nat.eq_zero_or_pos i with rfl | hi
    · rw [Nat.zero_mul]; rfl
    · obtain ⟨q, hq⟩ : ∃ q, i * k = q + 1 := ⟨i * k - 1, by have := Nat.mul_pos hi hk; omega⟩
      rw [hq, fine]
      rw [if_pos (by rw [← hq]; exact Nat.mul_mod_left i k)]
  | succ j ih =>
    intro hj
    rw [← ih (by omega), ← Nat.add_assoc, fine]
    rw [if_neg]
    rw [Nat.add_assoc, Nat.mul_comm, Nat.mul_add_mod, Nat.mod_eq_of_lt hj]
    omega

theorem fine_length (W : Works build S set n) (k j : Nat) :
    (fine build S set n k j).1.length = n ∧ (fine build S set n k j).2.length = n := by
  induction j with
  | zero => simp [fine]
  | succ j ih =>
    obtain ⟨net, hb, -⟩ := W.build _ ih.1
    have hy := W.stepBy net (j * set.interval) set.interval _ ih.2
    rw [fine]
    simp only [hb]
    split
    · exact ⟨hy, hy⟩
    · exact ⟨ih.1, hy⟩

/-- one small step -/
theorem fine_step (W : Works build S set n) (k : Nat) (hk : 0 < k) (i j : Nat) (hj : j < k) :
    ∃ net, build (fine build S set n k (i * k)).2 = some net ∧ (fine build S set n k (i * k + j + 1)).2 =
      S.stepBy net ((i * k + j : Nat) * set.interval) set.interval (fine build S set n k (i * k + j)).2 := by
  obtain ⟨net, hb, -⟩ := W.build _ (fine_length W k (i * k)).2
  refine ⟨net, hb, ?_⟩
  rw [fine]
  simp only [fine_anchor k hk i j hj, hb]
  split <;> rfl

theorem chunk_fixed (W : Works build S set n) (ha : set.adaptive = false) (k : Nat) (hk : 0 < k)
    (hs : set.step = k * set.interval) (i : Nat) :
    chunk build S set (i * set.step) (fine build S set n k (i * k)).2 =
      (List.range (k + 1)).map fun (j : Nat) =>
        (((i * k + j : Nat) : ℚ) * set.interval, (fine build S set n k (i * k + j)).2) := by
  obtain ⟨net, hb, -⟩ := W.build _ (fine_length W k (i * k)).2
  have hh := W.interval
  unfold chunk observed
  simp only [hb, ha, Bool.false_eq_true, if_false, hh, if_true]
  have hfl : ⌊set.step / set.interval⌋₊ = k := by
    rw [hs, mul_div_assoc, div_self (ne_of_gt hh), mul_one, Nat.floor_natCast]
  rw [hfl]
  have := constFrom_eq (fun t y => S.stepBy net t set.interval y) (i * set.step) set.interval
    (fun j => (fine build S set n k (i * k + j)).2) k 0 (by
      intro j hj
      obtain ⟨net', hb', e⟩ := fine_step W k hk i j (by omega)
      rw [hb, Option.some.injEq] at hb'
      subst hb'
      rw [← Nat.add_assoc, e, hs]
      congr 1
      push_cast
      ring)
  simp only [Nat.add_zero, Nat.zero_add] at this
  rw [this]
  apply List.map_congr_left
  intro j _
  simp only [Prod.mk.injEq, and_true]
  rw [hs]
  push_cast
  ring

theorem starts_fixed (W : Works build S set n) (ha : set.adaptive = false) (k : Nat) (hk : 0 < k)
    (hs : set.step = k * set.interval) (i : Nat) : starts build S set n i = (fine build S set n k (i * k)).2 := by
  induction i with
  | zero => rw [Nat.zero_mul]; rfl
  | succ i ih =>
    rw [starts, ih, chunk_fixed W ha k hk hs, endState, List.range_succ, List.map_append]
    simp [Nat.succ_mul]

/-- the observations up to and with small step `m` -/
def smallSteps (z : Nat → State) (h : ℚ) (m : Nat) : List Obs := (List.range m).map fun (j : Nat) => ((j : ℚ) * h, z j)

theorem trace_fixed (W : Works build S set n) (ha : set.adaptive = false) (k : Nat) (hk : 0 < k)
    (hs : set.step = k * set.interval) (m : Nat) (b : List Obs) :
    pick set.interval (set.duration - set.window) set.duration 0
      (trace build S set n m ++ (((m * k : Nat) : ℚ) * set.interval, (fine build S set n k (m * k)).2) :: b) =
    pick set.interval (set.duration - set.window) set.duration 0
      (smallSteps (fun j => (fine build S set n k j).2) set.interval (m * k) ++
        (((m * k : Nat) : ℚ) * set.interval, (fine build S set n k (m * k)).2) :: b) := by
  induction m generalizing b with
  | zero => simp [trace, smallSteps]
  | succ m ih =>
    rw [trace_succ, starts_fixed W ha k hk hs, chunk_fixed W ha k hk hs]
    -- first and last observation of the step
    obtain ⟨q, rfl⟩ : ∃ q, k = q + 1 := ⟨k - 1, by omega⟩
    have e1 : (List.range (q + 1 + 1)).map (fun (j : Nat) =>
        (((m * (q + 1) + j : Nat) : ℚ) * set.interval, (fine build S set n (q + 1) (m * (q + 1) + j)).2)) =
        (((m * (q + 1) : Nat) : ℚ) * set.interval, (fine build S set n (q + 1) (m * (q + 1))).2) ::
          ((List.range q).map (fun (j : Nat) =>
            (((m * (q + 1) + (j + 1) : Nat) : ℚ) * set.interval, (fine build S set n (q + 1) (m * (q + 1) + (j + 1))).2)) ++
          [((((m + 1) * (q + 1) : Nat) : ℚ) * set.interval, (fine build S set n (q + 1) ((m + 1) * (q + 1))).2)]) := by
      rw [List.range_succ_eq_map, List.map_cons, List.map_map, List.range_succ, List.map_append, Nat.succ_mul]
      rfl
    have e2 : smallSteps (fun j => (fine build S set n (q + 1) j).2) set.interval ((m + 1) * (q + 1)) =
        smallSteps (fun j => (fine build S set n (q + 1) j).2) set.interval (m * (q + 1)) ++
        (((m * (q + 1) : Nat) : ℚ) * set.interval, (fine build S set n (q + 1) (m * (q + 1))).2) ::
          (List.range q).map (fun (j : Nat) =>
            (((m * (q + 1) + (j + 1) : Nat) : ℚ) * set.interval, (fine build S set n (q + 1) (m * (q + 1) + (j + 1))).2)) := by
      unfold smallSteps
      rw [Nat.succ_mul, List.range_add, List.map_append, List.range_succ_eq_map, List.map_map, List.map_cons, List.map_map]
      rfl
    rw [e1, e2]
    simp only [List.append_assoc, List.cons_append, List.nil_append]
    rw [ih]
    have := pick_twice (lo := set.duration - set.window) (hi := set.duration) W.interval.le 0
      (smallSteps (fun j => (fine build S set n (q + 1) j).2) set.interval (m * (q + 1)) ++
        (((m * (q + 1) : Nat) : ℚ) * set.interval, (fine build S set n (q + 1) (m * (q + 1))).2) ::
          (List.range q).map (fun (j : Nat) =>
            (((m * (q + 1) + (j + 1) : Nat) : ℚ) * set.interval, (fine build S set n (q + 1) (m * (q + 1) + (j + 1))).2)))
      ((((m + 1) * (q + 1) : Nat) : ℚ) * set.interval, (fine build S set n (q + 1) ((m + 1) * (q + 1))).2) b
    simpa only [List.append_assoc, List.cons_append, List.nil_append] using this

/-- **C97**, the part that holds, for fixed steps and material values that depend on the temperature.  Let the step
be `k` intervals.  There is a trajectory `z` that starts at the temperature of the environment and goes on by one
step of the integrator per interval, each in the network built from the state at the last multiple of the step.
The analysis ends, takes a step, and reports the samples and extremes of this trajectory up to the end of the
step that reaches the duration.  What is missing: other steps (`c97_lost_time_refuted`), no probes
(`c97_no_probe_refuted`), no samples (`c97_no_sample_refuted`), the default interval (`c97_default_refuted`), networks
with more nodes than the model (`c97_size_refuted`), and reduced models (`c97_reduced_refuted`). -/
theorem c97_fixed_partial (W : Works build S set n) (big : ℚ) (htd : set.tempDep = true) (ha : set.adaptive = false)
    (hp : set.probs ≠ []) (k : Nat) (hk : 0 < k) (hs : set.step = k * set.interval) (fuel : Nat)
    (hf : set.duration ≤ fuel * set.step) :
    ∃ z : Nat → State, ∃ m : Nat,
      z 0 = List.replicate n set.envT ∧
      (∀ i j, j < k → ∃ net, build (z (i * k)) = some net ∧
        z (i * k + j + 1) = S.stepBy net ((i * k + j : Nat) * set.interval) set.interval (z (i * k + j))) ∧
      ((m : ℚ) - 1) * set.step < set.duration ∧ set.duration ≤ m * set.step ∧
      ∃ out, solve build S n big set fuel = some (.ok out) ∧ out.ok = true ∧
        Reports big set (smallSteps z set.interval (m * k + 1)) out := by
  have hh := W.interval
  have hstep : 0 < set.step := by rw [hs]; positivity
  obtain ⟨c1, c2⟩ := ceil_spec set hstep
  have hd := W.duration
  obtain ⟨q, hq⟩ : ∃ q, ⌈set.duration / set.step⌉₊ = q + 1 := by
    refine ⟨⌈set.duration / set.step⌉₊ - 1, ?_⟩
    have : 0 < ⌈set.duration / set.step⌉₊ := Nat.ceil_pos.2 (by positivity)
    omega
  rw [hq] at c1 c2
  have hle : q + 1 ≤ fuel := by
    rw [← hq]
    apply Nat.ceil_le.2
    rwa [div_le_iff₀ hstep]
  obtain ⟨out, o1, o2, o3⟩ := solve_ok W big htd hp hstep (q + 1) (by exact_mod_cast c1) c2 fuel hle
  refine ⟨fun j => (fine build S set n k j).2, q + 1, rfl, fun i j hj => fine_step W k hk i j hj, ?_, by exact_mod_cast c1,
    out, o1, ?_, ?_⟩
  · have := c2 q (by omega)
    push_cast
    simpa using this
  · rw [o2, decide_eq_true_iff]
    unfold taken
    rw [List.range_succ, List.map_append, List.sum_append]
    simp only [List.map_cons, List.map_nil, starts_fixed W ha k hk hs, chunk_fixed W ha k hk hs, List.length_map,
      List.length_range, List.sum_cons, List.sum_nil]
    omega
  · have key : pick set.interval (set.duration - set.window) set.duration 0 (trace build S set n (q + 1)) =
        pick set.interval (set.duration - set.window) set.duration 0
          (smallSteps (fun j => (fine build S set n k j).2) set.interval ((q + 1) * k + 1)) := by
      have e1 : chunk build S set (q * set.step) (fine build S set n k (q * k)).2 =
          (((q * k : Nat) : ℚ) * set.interval, (fine build S set n k (q * k)).2) ::
            (List.range k).map (fun (j : Nat) =>
              (((q * k + (j + 1) : Nat) : ℚ) * set.interval, (fine build S set n k (q * k + (j + 1))).2)) := by
        rw [chunk_fixed W ha k hk hs, List.range_succ_eq_map, List.map_cons, List.map_map]
        rfl
      rw [trace_succ, starts_fixed W ha k hk hs, e1, trace_fixed W ha k hk hs]
      congr 1
      unfold smallSteps
      rw [Nat.succ_mul, Nat.add_assoc, List.range_add, List.map_append, List.range_succ_eq_map, List.map_map, List.map_cons,
        List.map_map]
      rfl
    unfold Reports at o3 ⊢
    rw [key] at o3
    exact o3

/-- The same with the adaptive integrator: the trajectory goes from one multiple of the step to the next by the
observations of the integrator, in the network built from the state at the first of both. -/
theorem c97_adaptive_partial (W : Works build S set n) (big : ℚ) (htd : set.tempDep = true) (ha : set.adaptive = true)
    (hp : set.probs ≠ []) (hstep : 0 < set.step) (hne : ∀ net t x, S.adapt net t set.step set.interval x ≠ []) (fuel : Nat)
    (hf : set.duration ≤ fuel * set.step) :
    ∃ z : Nat → State, ∃ net : Nat → N, ∃ m : Nat,
      z 0 = List.replicate n set.envT ∧
      (∀ i, build (z i) = some (net i) ∧
        ∃ t, (S.adapt (net i) (i * set.step) set.step set.interval (z i)).getLast? = some (t, z (i + 1))) ∧
      ((m : ℚ) - 1) * set.step < set.duration ∧ set.duration ≤ m * set.step ∧
      ∃ out, solve build S n big set fuel = some (.ok out) ∧ out.ok = true ∧
        Reports big set ((List.range m).flatMap fun (i : Nat) =>
          ((i : ℚ) * set.step, z i) :: S.adapt (net i) (i * set.step) set.step set.interval (z i)) out := by
  have hd := W.duration
  obtain ⟨c1, c2⟩ := ceil_spec set hstep
  obtain ⟨q, hq⟩ : ∃ q, ⌈set.duration / set.step⌉₊ = q + 1 := by
    refine ⟨⌈set.duration / set.step⌉₊ - 1, ?_⟩
    have : 0 < ⌈set.duration / set.step⌉₊ := Nat.ceil_pos.2 (by positivity)
    omega
  rw [hq] at c1 c2
  have hle : q + 1 ≤ fuel := by
    rw [← hq]
    apply Nat.ceil_le.2
    rwa [div_le_iff₀ hstep]
  obtain ⟨out, o1, o2, o3⟩ := solve_ok W big htd hp hstep (q + 1) (by exact_mod_cast c1) c2 fuel hle
  have hlen : ∀ i, (starts build S set n i).length = n := by
    intro i
    induction i with
    | zero => simp [starts]
    | succ i ih =>
      obtain ⟨net, hb, -⟩ := W.build _ ih
      rw [starts, endState]
      cases hl : (chunk build S set (i * set.step) (starts build S set n i)).getLast? with
      | none => simpa using ih
      | some o =>
        have hm := List.mem_of_getLast? hl
        unfold chunk at hm
        rw [hb] at hm
        simpa using observed_length W net _ _ _ _ ih o hm
  choose net hnet hsz using fun i => W.build _ (hlen i)
  have hchunk : ∀ i : Nat, chunk build S set ((i : ℚ) * set.step) (starts build S set n i) = ((i : ℚ) * set.step, starts build S set n i) ::
      S.adapt (net i) (i * set.step) set.step set.interval (starts build S set n i) := by
    intro i
    unfold chunk observed
    simp only [hnet, ha, if_true, W.interval, hstep, and_self]
  refine ⟨starts build S set n, net, q + 1, rfl, ?_, ?_, by exact_mod_cast c1, out, o1, ?_, ?_⟩
  · intro i
    refine ⟨hnet i, ?_⟩
    rw [starts, endState, hchunk]
    cases hl : S.adapt (net i) (i * set.step) set.step set.interval (starts build S set n i) with
    | nil => exact absurd hl (hne _ _ _)
    | cons o os =>
      rw [List.getLast?_cons_cons]
      cases hg : (o :: os).getLast? with
      | none => simp at hg
      | some p => exact ⟨p.1, by simp⟩
  · have := c2 q (by omega)
    push_cast
    simpa using this
  · rw [o2, decide_eq_true_iff]
    unfold taken
    rw [List.range_succ, List.map_append, List.sum_append]
    simp only [List.map_cons, List.map_nil, List.sum_cons, List.sum_nil, hchunk, List.length_cons]
    have := List.length_pos_iff.2 (hne (net q) (q * set.step) (starts build S set n q))
    omega
  · have key : trace build S set n (q + 1) = (List.range (q + 1)).flatMap fun (i : Nat) =>
          ((i : ℚ) * set.step, starts build S set n i) ::
            S.adapt (net i) (i * set.step) set.step set.interval (starts build S set n i) := by
      unfold trace
      simp only [hchunk]
    rw [key] at o3
    exact o3

/-- Without temperature dependence there is one network and one integration: with fixed steps the trajectory is
sampled at all multiples of the interval up to the duration. -/
theorem c97_constant_partial (W : Works build S set n) (big : ℚ) (htd : set.tempDep = false) (ha : set.adaptive = false)
    (hp : set.probs ≠ []) (hi : set.interval ≤ set.duration) (fuel : Nat) :
    ∃ z : Nat → State, ∃ net, ∃ m : Nat,
      z 0 = List.replicate n set.envT ∧ build (z 0) = some net ∧
      (∀ j, z (j + 1) = S.stepBy net (j * set.interval) set.interval (z j)) ∧
      (m : ℚ) * set.interval ≤ set.duration ∧ set.duration < (m + 1) * set.interval ∧
      ∃ out, solve build S n big set fuel = some (.ok out) ∧ out.ok = true ∧
        Reports big set (smallSteps z set.interval (m + 1)) out := by
  have hh := W.interval
  obtain ⟨net, st', hb, p1, p2, p3, p4, p5, p6⟩ := piece_ok W set.duration set.interval (St.init n set) (by simp [St.init]) []
    (by simp [pick, St.init])
  let z : Nat → State := fun j => Nat.rec (List.replicate n set.envT) (fun j y => S.stepBy net (j * set.interval) set.interval y) j
  have hobs : observed S set.adaptive net 0 set.duration set.interval (List.replicate n set.envT) =
      smallSteps z set.interval (⌊set.duration / set.interval⌋₊ + 1) := by
    unfold observed
    simp only [ha, Bool.false_eq_true, if_false, hh, if_true]
    have := constFrom_eq (fun t y => S.stepBy net t set.interval y) 0 set.interval z ⌊set.duration / set.interval⌋₊ 0 (by
      intro j _
      simp only [zero_add]
      rfl)
    simp only [Nat.zero_add, zero_add] at this
    exact this
  have e : (St.init n set).time = 0 ∧ (St.init n set).temps = List.replicate n set.envT ∧ (St.init n set).steps = 0 := ⟨rfl, rfl, rfl⟩
  rw [e.1, e.2.1] at p5 p6
  rw [hobs] at p5 p6
  rw [List.nil_append] at p6
  obtain ⟨out, f1, f2, f3⟩ := finish_ok big hp st' _ p6
  refine ⟨z, net, ⌊set.duration / set.interval⌋₊, rfl, hb, fun j => rfl, ?_, ?_, out, ?_, ?_, f3⟩
  · have := Nat.floor_le (div_nonneg W.duration.le hh.le)
    rwa [le_div_iff₀ hh] at this
  · have := Nat.lt_floor_add_one (set.duration / set.interval)
    rwa [div_lt_iff₀ hh] at this
  · unfold solve
    simp only [htd, ha, Bool.false_eq_true, if_false, p1, Res.bind_ok, f1]
  · rw [f2, p5, decide_eq_true_iff]
    have : 0 < ⌊set.duration / set.interval⌋₊ := Nat.floor_pos.2 (by rwa [le_div_iff₀ hh, one_mul])
    simpa [smallSteps, e.2.2] using this

/-- The same with the adaptive integrator, which starts with the simulation step -/
theorem c97_constant_adaptive_partial (W : Works build S set n) (big : ℚ) (htd : set.tempDep = false) (ha : set.adaptive = true)
    (hp : set.probs ≠ []) (hstep : 0 < set.step) (hne : ∀ net x, S.adapt net 0 set.duration set.step x ≠ []) (fuel : Nat) :
    ∃ net, build (List.replicate n set.envT) = some net ∧
      ∃ out, solve build S n big set fuel = some (.ok out) ∧ out.ok = true ∧
        Reports big set ((0, List.replicate n set.envT) ::
          S.adapt net 0 set.duration set.step (List.replicate n set.envT)) out := by
  obtain ⟨net, st', hb, p1, p2, p3, p4, p5, p6⟩ := piece_ok W set.duration set.step (St.init n set) (by simp [St.init]) []
    (by simp [pick, St.init])
  have e : (St.init n set).time = 0 ∧ (St.init n set).temps = List.replicate n set.envT ∧ (St.init n set).steps = 0 := ⟨rfl, rfl, rfl⟩
  rw [e.2.1] at hb
  have hobs : observed S set.adaptive net 0 set.duration set.step (List.replicate n set.envT) =
      (0, List.replicate n set.envT) :: S.adapt net 0 set.duration set.step (List.replicate n set.envT) := by
    unfold observed
    simp only [ha, if_true, hstep, W.duration, and_self]
  rw [e.1, e.2.1, hobs] at p5 p6
  rw [List.nil_append] at p6
  obtain ⟨out, f1, f2, f3⟩ := finish_ok big hp st' _ p6
  refine ⟨net, hb, out, ?_, ?_, f3⟩
  · unfold solve
    simp only [htd, ha, Bool.false_eq_true, if_false, if_true, p1, Res.bind_ok, f1]
  · rw [f2, p5, decide_eq_true_iff, e.2.2]
    have := List.length_pos_iff.2 (hne net (List.replicate n set.envT))
    simp only [List.length_cons]
    omega

/-- A reduced model with constant materials: its state starts at the reduced temperature of the environment and goes on
by the steps of the reduced integrator; the outputs along this trajectory are reported. -/
theorem c97_reduced_partial (R : Reduced N) (big : ℚ) (htd : set.tempDep = false) (ha : set.adaptive = false)
    (hi : 0 < set.interval) (hw : 0 ≤ set.window) (hd : set.interval ≤ set.duration) (net : N)
    (hb : build (List.replicate n set.envT) = some net) (hn : R.nodes net = n) (k : Nat) (hk : 0 < k)
    (hout : ∀ x, (R.output net x).length = k) (fuel : Nat) :
    ∃ z : Nat → State, ∃ m : Nat,
      z 0 = R.toState net (List.replicate n set.envT) ∧
      (∀ j, z (j + 1) = R.scheme.stepBy net (j * set.interval) set.interval (z j)) ∧
      (m : ℚ) * set.interval ≤ set.duration ∧ set.duration < (m + 1) * set.interval ∧
      ∃ out, solveR build R n big set fuel = some (.ok (some out)) ∧ out.ok = true ∧
        Reports big { set with probs := List.range k } (smallSteps (fun j => R.output net (z j)) set.interval (m + 1)) out := by
  let z : Nat → State := fun j => Nat.rec (R.toState net (List.replicate n set.envT))
    (fun j y => R.scheme.stepBy net (j * set.interval) set.interval y) j
  have hobs : observed R.scheme set.adaptive net 0 set.duration set.interval (R.toState net (List.replicate n set.envT)) =
      smallSteps z set.interval (⌊set.duration / set.interval⌋₊ + 1) := by
    unfold observed
    simp only [ha, Bool.false_eq_true, if_false, hi, if_true]
    have := constFrom_eq (fun t y => R.scheme.stepBy net t set.interval y) 0 set.interval z ⌊set.duration / set.interval⌋₊ 0 (by
      intro j _
      simp only [zero_add]
      rfl)
    simp only [Nat.zero_add, zero_add] at this
    exact this
  obtain ⟨s', h1, h2⟩ := sampler_run (fun y => .ok (R.output net y)) (R.output net)
    (smallSteps z set.interval (⌊set.duration / set.interval⌋₊ + 1))
    (fun o _ => rfl) ⟨set.duration - set.window, set.duration, set.interval, lastOf 0 ([] : List Sample), 0, []⟩ 0 (by simp [lastOf])
  have hfl : 0 < ⌊set.duration / set.interval⌋₊ := Nat.floor_pos.2 (by rwa [le_div_iff₀ hi, one_mul])
  let st' : St := ⟨0, R.output net (((smallSteps z set.interval (⌊set.duration / set.interval⌋₊ + 1)).getLast?.map Prod.snd).getD
    (R.toState net (List.replicate n set.envT))), s'.samples, 0 + ((smallSteps z set.interval (⌊set.duration / set.interval⌋₊ + 1)).length - 1)⟩
  have hpiece : pieceR build R set set.duration set.interval (St.init n set) = .ok (some st') := by
    unfold pieceR
    simp only [St.init, hb, List.length_replicate, hn, ne_eq, not_true_eq_false, if_false, new_ok hi hw, Res.bind_ok, hobs, h1]
    rfl
  have hs : st'.samples = (pick set.interval (set.duration - set.window) set.duration 0
      (smallSteps (fun j => R.output net (z j)) set.interval (⌊set.duration / set.interval⌋₊ + 1))).map
        (raw { set with probs := List.range k }) := by
    show s'.samples = _
    rw [h2, List.nil_append]
    have e1 : smallSteps (fun j => R.output net (z j)) set.interval (⌊set.duration / set.interval⌋₊ + 1) =
        (smallSteps z set.interval (⌊set.duration / set.interval⌋₊ + 1)).map fun o => (o.1, R.output net o.2) := by
      unfold smallSteps
      rw [List.map_map]
      rfl
    rw [e1, pick_map (fun o : Obs => ((o.1, R.output net o.2) : Obs)) (fun _ => rfl), List.map_map]
    apply List.map_congr_left
    intro o _
    simp only [Function.comp, raw]
    congr 1
    apply List.ext_getElem
    · simp [hout]
    · intro i a b
      rw [hout] at a
      simp [hout, a]
  obtain ⟨out, f1, f2, f3⟩ := finish_ok (set := { set with probs := List.range k }) big (by simp; omega) st' _ hs
  refine ⟨z, ⌊set.duration / set.interval⌋₊, rfl, fun j => rfl, ?_, ?_, out, ?_, ?_, f3⟩
  · have := Nat.floor_le (div_nonneg (hi.le.trans hd) hi.le)
    rwa [le_div_iff₀ hi] at this
  · have := Nat.lt_floor_add_one (set.duration / set.interval)
    rwa [div_lt_iff₀ hi] at this
  · have f1' : finish big set st' = .ok out := f1
    unfold solveR
    simp only [htd, ha, Bool.false_eq_true, if_false, hpiece, Res.bind_ok, f1']
  · rw [f2, decide_eq_true_iff]
    simp only [st', smallSteps, List.length_map, List.length_range]
    omega

/-! ### what is wrong -/

/-- **C97** fails for fixed steps if the step is no multiple of the interval: a step integrates over as many
intervals as fit, and the next one starts at its end with that state; the time in between is lost. -/
theorem c97_lost_time_refuted (W : Works build S set n) (ha : set.adaptive = false) (m : Nat)
    (hm : (m : ℚ) * set.interval < set.step) (hm2 : set.step < (m + 1) * set.interval) (st : St) (hx : st.temps.length = n)
    (hs : st.samples = []) :
    ∃ net, ∃ st' : St, ∃ z : Nat → State, build st.temps = some net ∧ piece build S set set.step set.interval st = .ok st' ∧
      z 0 = st.temps ∧ (∀ j : Nat, z (j + 1) = S.stepBy net (st.time + j * set.interval) set.interval (z j)) ∧
      st'.temps = z m ∧ st.time + m * set.interval < st'.time + set.step ∧ st'.steps = st.steps + m := by
  have hh := W.interval
  obtain ⟨net, st', hb, p1, p2, p3, p4, p5, p6⟩ := piece_ok W set.step set.interval st hx [] (by simp [pick, hs])
  let z : Nat → State := fun j => Nat.rec st.temps (fun j y => S.stepBy net (st.time + j * set.interval) set.interval y) j
  have hfl : ⌊set.step / set.interval⌋₊ = m := by
    rw [Nat.floor_eq_iff (div_nonneg (by have : (0 : ℚ) ≤ m * set.interval := by positivity
                                         linarith) hh.le)]
    constructor
    · rw [le_div_iff₀ hh]; exact hm.le
    · rw [div_lt_iff₀ hh]; exact hm2
  have hobs : observed S set.adaptive net st.time set.step set.interval st.temps =
      (List.range (m + 1)).map fun (j : Nat) => (st.time + ((0 + j : Nat) : ℚ) * set.interval, z (0 + j)) := by
    unfold observed
    simp only [ha, Bool.false_eq_true, if_false, hh, if_true, hfl]
    exact constFrom_eq (fun t y => S.stepBy net t set.interval y) st.time set.interval z m 0 (fun j _ => rfl)
  rw [hobs] at p3 p5
  refine ⟨net, st', z, hb, p1, rfl, fun j => rfl, ?_, ?_, ?_⟩
  · rw [p3, endState, List.range_succ, List.map_append]
    simp
  · rw [p2]; linarith
  · rw [p5]; simp

/-- With the default interval of zero the sampler divides by zero: undefined, whatever is simulated. -/
theorem c97_default_refuted (big : ℚ) (hi : set.interval = 0) (hd : 0 < set.duration)
    (hb : ∃ net, build (List.replicate n set.envT) = some net) (fuel : Nat) :
    solve build S n big set (fuel + 1) = some .ub := by
  obtain ⟨net, hb⟩ := hb
  have : ∀ dur dt, piece build S set dur dt (St.init n set) = .ub := by
    intro dur dt
    simp only [piece, St.init, hb, Sampler.new, hi, true_or, if_true, Res.bind_ub]
  unfold solve
  split
  · rw [loop, if_pos (by simpa [St.init] using hd), this]
    rfl
  · rw [this]
    rfl

theorem loop_still (W : 0 < set.interval ∧ 0 ≤ set.window) (hstep : 0 < set.step)
    (hb : ∃ net, build (List.replicate n set.envT) = some net ∧ S.size net ≠ n) (fuel : Nat) :
    ∀ st : St, st.temps = List.replicate n set.envT → st.samples = [] → st.steps = 0 →
      set.duration ≤ st.time + fuel * set.step →
      ∃ st', loop build S set fuel st = some (.ok st') ∧ st'.samples = [] ∧ st'.steps = 0 := by
  obtain ⟨net, hb, hne⟩ := hb
  induction fuel with
  | zero =>
    intro st hx hs hk hd
    rw [loop, if_neg (by simp at hd; linarith)]
    exact ⟨st, rfl, hs, hk⟩
  | succ fuel ih =>
    intro st hx hs hk hd
    rw [loop]
    split
    · have hp : piece build S set set.step set.interval st = .ok st := by
        unfold piece
        simp only [hx, hb, new_ok W.1 W.2, Res.bind_ok, List.length_replicate]
        rw [if_pos (fun h => hne h.symm)]
      simp only [hp]
      exact ih { st with time := st.time + set.step } hx hs hk (by simp only; push_cast at hd; linarith)
    · exact ⟨st, rfl, hs, hk⟩

/-- A model whose network has further nodes (block powers of grid models) is never simulated: the solver gives up,
without message, and the result is failure. -/
theorem c97_size_refuted (big : ℚ) (hi : 0 < set.interval) (hw : 0 ≤ set.window) (hstep : 0 < set.step)
    (hb : ∃ net, build (List.replicate n set.envT) = some net ∧ S.size net ≠ n) (fuel : Nat)
    (hf : set.duration ≤ fuel * set.step) :
    solve build S n big set fuel = some (.ok ⟨false, big, -big, []⟩) := by
  unfold solve
  split
  · obtain ⟨st', h1, h2, h3⟩ := loop_still ⟨hi, hw⟩ hstep hb fuel (St.init n set) rfl rfl rfl (by simpa [St.init] using hf)
    rw [h1]
    simp [finish, h2, h3, report]
  · obtain ⟨net, hb, hne⟩ := hb
    have hp : ∀ dur dt, piece build S set dur dt (St.init n set) = .ok (St.init n set) := by
      intro dur dt
      unfold piece
      simp only [St.init, hb, new_ok hi hw, Res.bind_ok, List.length_replicate]
      rw [if_pos (fun h => hne h.symm)]
    rw [hp]
    simp [finish, St.init, report]

/-- If nothing is sampled (an interval of at least the duration) the analysis succeeds with a lowest temperature of
the greatest number and a highest one of its negative. -/
theorem c97_no_sample_refuted (big : ℚ) (st : St) (hs : st.samples = []) (hk : 0 < st.steps) :
    finish big set st = .ok ⟨true, big, -big, []⟩ ∧
    (∀ tr : List Obs, (∀ o ∈ tr, 0 ≤ o.1 ∧ o.1 ≤ set.interval) →
      pick set.interval (set.duration - set.window) set.duration 0 tr = []) := by
  refine ⟨by simp [finish, hs, report, hk], ?_⟩
  intro tr htr
  induction tr with
  | nil => rfl
  | cons o tr ih =>
    rw [pick, if_neg, ih fun x hx => htr x (List.mem_cons_of_mem _ hx)]
    rintro ⟨-, -, h⟩
    have := (htr o (by simp)).2
    linarith

/-- Without probes the first sample makes the search for extremes dereference the end of an empty range. -/
theorem c97_no_probe_refuted (big : ℚ) (st : St) (s : Sample) (ss : List Sample) (hs : st.samples = s :: ss)
    (hv : s.2 = []) : finish big set st = .ub := by
  obtain ⟨t, vs⟩ := s
  simp only at hv
  subst hv
  unfold finish
  rw [hs, report]
  simp

theorem probe_out (x : State) (ps : List Nat) (h : ∃ p ∈ ps, x.length ≤ p) : probe x ps = .ub := by
  induction ps with
  | nil => simp at h
  | cons p ps ih =>
    rw [probe]
    cases hx : x[p]? with
    | none => rfl
    | some v =>
      have : p < x.length := (List.getElem?_eq_some_iff.1 hx).1
      obtain ⟨q, hq, h⟩ := h
      rcases List.mem_cons.1 hq with rfl | hq
      · omega
      · simp only [ih ⟨q, hq, h⟩, Res.bind_ub]

theorem sampler_run_ub (out : State → Res (List ℚ)) (os : List Obs) (ho : ∀ o ∈ os, out o.2 = .ub) (s : Sampler) (last : ℚ)
    (hc : s.count = s.prev - last) (hp : pick s.interval s.start s.stop last os ≠ []) : s.run out os = .ub := by
  induction os generalizing s with
  | nil => exact absurd rfl hp
  | cons o os ih =>
    have hos : ∀ o ∈ os, out o.2 = .ub := fun x hx => ho x (List.mem_cons_of_mem _ hx)
    rw [Sampler.run, Sampler.observe]
    rw [pick] at hp
    by_cases hw : s.start ≤ o.1 ∧ o.1 ≤ s.stop
    · rw [if_pos hw]
      have e : s.count + (o.1 - s.prev) = o.1 - last := by rw [hc]; ring
      by_cases hi : s.interval < o.1 - last
      · simp only [e, gt_iff_lt, hi, if_true, ho o (by simp), Res.bind_ub]
      · simp only [e, gt_iff_lt, hi, if_false, Res.bind_ok]
        rw [if_neg (fun h => hi h.2.2)] at hp
        exact ih hos _ (by simp) hp
    · rw [if_neg hw, Res.bind_ok]
      rw [if_neg (fun h => hw ⟨h.1, h.2.1⟩)] at hp
      exact ih hos s hc hp

/-- A probe that is no node is read behind the end of the state at the first sample. -/
theorem c97_probe_refuted (big : ℚ) (htd : set.tempDep = false) (ha : set.adaptive = false) (hi : 0 < set.interval)
    (hw : 0 ≤ set.window) (net : N) (hb : build (List.replicate n set.envT) = some net) (hsz : S.size net = n)
    (hst : ∀ t dt x, x.length = n → (S.stepBy net t dt x).length = n) (hp : ∃ p ∈ set.probs, n ≤ p)
    (j : Nat) (hj1 : set.duration - set.window ≤ j * set.interval) (hj2 : j * set.interval ≤ set.duration) (hj3 : 2 ≤ j) (fuel : Nat) :
    solve build S n big set fuel = some .ub := by
  have hobs : ∀ o ∈ observed S false net 0 set.duration set.interval (List.replicate n set.envT), o.2.length = n := by
    unfold observed
    simp only [Bool.false_eq_true, if_false]
    exact constFrom_length _ (fun t x hx => hst t _ x hx) _ _ _ _ _ (by simp)
  have hrun : Sampler.run (probe · set.probs)
      ⟨set.duration - set.window, set.duration, set.interval, lastOf 0 ([] : List Sample), 0, []⟩
      (observed S false net 0 set.duration set.interval (List.replicate n set.envT)) = .ub := by
    refine sampler_run_ub _ _ (fun o ho => probe_out _ _ ?_) _ 0 (by simp [lastOf]) ?_
    · obtain ⟨p, h1, h2⟩ := hp
      exact ⟨p, h1, by rw [hobs o ho]; exact h2⟩
    · let z : Nat → State := fun j => Nat.rec (List.replicate n set.envT) (fun j y => S.stepBy net (j * set.interval) set.interval y) j
      have e : observed S false net 0 set.duration set.interval (List.replicate n set.envT) =
          smallSteps z set.interval (⌊set.duration / set.interval⌋₊ + 1) := by
        unfold observed
        simp only [Bool.false_eq_true, if_false, hi, if_true]
        have := constFrom_eq (fun t y => S.stepBy net t set.interval y) 0 set.interval z ⌊set.duration / set.interval⌋₊ 0 (by
          intro j _
          simp only [zero_add]
          rfl)
        simp only [Nat.zero_add, zero_add] at this
        exact this
      rw [e]
      have hjm : j ≤ ⌊set.duration / set.interval⌋₊ := by
        apply Nat.le_floor
        rwa [le_div_iff₀ hi]
      have hmem : ((j : ℚ) * set.interval, z j) ∈ smallSteps z set.interval (⌊set.duration / set.interval⌋₊ + 1) := by
        unfold smallSteps
        rw [List.mem_map]
        exact ⟨j, List.mem_range.2 (by omega), rfl⟩
      have key : ∀ (os : List Obs) (o : Obs), o ∈ os → set.duration - set.window ≤ o.1 → o.1 ≤ set.duration → set.interval < o.1 - 0 →
          pick set.interval (set.duration - set.window) set.duration 0 os ≠ [] := by
        intro os
        induction os with
        | nil => intro o ho; simp at ho
        | cons a os ih =>
          intro o ho h1 h2 h3
          rw [pick]
          split
          · simp
          · rename_i hn
            rcases List.mem_cons.1 ho with rfl | ho
            · exact absurd ⟨h1, h2, h3⟩ hn
            · exact ih o ho h1 h2 h3
      refine key _ _ hmem hj1 hj2 ?_
      have : (2 : ℚ) ≤ j := by exact_mod_cast hj3
      simp only [sub_zero]
      nlinarith
  unfold solve
  simp only [htd, ha, Bool.false_eq_true, if_false]
  unfold piece
  simp only [St.init, hb, new_ok hi hw, Res.bind_ok, List.length_replicate, hsz, ne_eq, not_true_eq_false, if_false, ha, hrun,
    Res.bind_ub]

/-- A reduced model for a network with more nodes than the model fails. -/
theorem c97_reduced_size_refuted (R : Reduced N) (big : ℚ) (hd : 0 < set.duration)
    (hb : ∃ net, build (List.replicate n set.envT) = some net ∧ R.nodes net ≠ n) (fuel : Nat) :
    solveR build R n big set (fuel + 1) = some (.ok none) := by
  obtain ⟨net, hb, hn⟩ := hb
  have : ∀ dur dt, pieceR build R set dur dt (St.init n set) = .ok none := by
    intro dur dt
    unfold pieceR
    simp only [St.init, hb, List.length_replicate]
    rw [if_pos (fun h => hn h.symm)]
  unfold solveR
  split
  · rw [loopR, if_pos (by simpa [St.init] using hd), this]
    rfl
  · rw [this]
    rfl

/-- A step that is not positive: the analysis never ends. -/
theorem c97_step_refuted (big : ℚ) (hstep : set.step ≤ 0) (hd : 0 < set.duration) (htd : set.tempDep = true) (fuel : Nat)
    (out : Out) : solve build S n big set fuel ≠ some (.ok out) := by
  have key : ∀ fuel (st : St), st.time < set.duration → ∀ st', loop build S set fuel st ≠ some (.ok st') := by
    intro fuel
    induction fuel with
    | zero => intro st h st'; rw [loop, if_pos h]; simp
    | succ fuel ih =>
      intro st h st'
      rw [loop, if_pos h]
      cases hp : piece build S set set.step set.interval st with
      | ub => simp
      | exn => simp
      | ok st1 =>
        have : st1.time = st.time := by
          unfold piece at hp
          split at hp
          · simp at hp
          · cases hq : Sampler.new set st.samples with
            | ub => simp [hq] at hp
            | exn => simp [hq] at hp
            | ok smp =>
              simp only [hq, Res.bind_ok] at hp
              split at hp
              · simp only [Res.ok.injEq] at hp; rw [hp]
              · rename_i net _ _
                cases hr : Sampler.run (probe · set.probs) smp
                    (observed S set.adaptive net st.time set.step set.interval st.temps) with
                | ub => simp [hr] at hp
                | exn => simp [hr] at hp
                | ok s2 =>
                  simp only [hr, Res.bind_ok, Res.ok.injEq] at hp
                  rw [← hp]
        exact ih _ (by simp only [this]; linarith) st'
  intro h
  unfold solve at h
  rw [if_pos htd] at h
  cases hl : loop build S set fuel (St.init n set) with
  | none => simp [hl] at h
  | some r =>
    cases r with
    | ok st => exact key fuel (St.init n set) (by simpa [St.init] using hd) st hl
    | ub => simp [hl] at h
    | exn => simp [hl] at h

/-- **C97** fails for reduced models with temperature dependence: after the first step the temperatures of the nodes
are replaced by those of the probes, for which no network can be built; a null pointer is dereferenced. -/
theorem c97_reduced_refuted (R : Reduced N) (big : ℚ) (htd : set.tempDep = true) (hi : 0 < set.interval) (hw : 0 ≤ set.window)
    (hstep : 0 < set.step) (hd : set.step < set.duration) (hb : ∀ x : State, x.length ≠ n → build x = none)
    (hb0 : ∃ net, build (List.replicate n set.envT) = some net ∧ R.nodes net = n)
    (hout : ∀ net x, (R.output net x).length = set.probs.length) (hp : set.probs.length ≠ n) (fuel : Nat) :
    solveR build R n big set (fuel + 2) = some .ub := by
  obtain ⟨net, hb0, hn⟩ := hb0
  unfold solveR
  simp only [htd, if_true]
  obtain ⟨s', h1, -⟩ := sampler_run (fun y => .ok (R.output net y)) (R.output net)
    (observed R.scheme set.adaptive net 0 set.step set.interval (R.toState net (List.replicate n set.envT)))
    (fun o _ => rfl) ⟨set.duration - set.window, set.duration, set.interval, lastOf 0 ([] : List Sample), 0, []⟩ 0 (by simp [lastOf])
  rw [loopR, if_pos (by simp [St.init]; linarith)]
  have hp1 : ∃ st', pieceR build R set set.step set.interval (St.init n set) = .ok (some st') ∧ st'.time = 0 ∧
      st'.temps.length ≠ n := by
    unfold pieceR
    simp only [St.init, hb0, List.length_replicate, hn, ne_eq, not_true_eq_false, if_false, new_ok hi hw, Res.bind_ok, h1]
    refine ⟨_, rfl, ?_, ?_⟩
    · rfl
    · simp only [hout]
      exact hp
  obtain ⟨st', e1, e2, e3⟩ := hp1
  simp only [e1]
  rw [loopR, if_pos (by simp only [e2]; linarith)]
  have : pieceR build R set set.step set.interval { st' with time := st'.time + set.step } = .ub := by
    unfold pieceR
    simp only [hb _ e3]
  rw [this]
  rfl

end

/-! ### example -/

/-- one node that cools down; the network is its conductance, which depends on the temperature -/
def exBuild (x : State) : Option ℚ := if x.length = 2 then some (1 / 10 + x.getD 0 0 / 10000) else none

def exScheme : Scheme ℚ where
  size _ := 2
  stepBy g _ dt x := [x.getD 0 0 + dt * (10 - g * (x.getD 0 0 - 300)), x.getD 1 0]
  adapt g t dur _ x := [(t + dur, [x.getD 0 0 + dur * (10 - g * (x.getD 0 0 - 300)), x.getD 1 0])]

def exSet : Settings := ⟨false, true, 2, 4, 1, 4, [0], 300, false, 0⟩

example : Works exBuild exScheme exSet 2 where
  build x hx := ⟨_, by unfold exBuild; rw [if_pos hx], rfl⟩
  stepBy _ _ _ _ _ := rfl
  adapt _ _ _ _ _ _ o ho := by simp [exScheme] at ho; subst ho; rfl
  interval := by decide +kernel
  window := by decide +kernel
  duration := by decide +kernel
  probs := by decide

example : exSet.step = (2 : Nat) * exSet.interval := by decide +kernel

example : (match solve exBuild exScheme 2 1000000 exSet 5 with
  | some (.ok out) => out.samples.map Prod.fst
  | _ => []) = [2, 4] := by decide +kernel

example : (match solve exBuild exScheme 2 1000000 exSet 5 with
  | some (.ok out) => (out.ok, out.lo)
  | _ => (false, 0)) = (true, 3187 / 10) := by decide +kernel

/-- steps of 1.5 with an interval of 1 -/
example : (1 : Nat) * exSet.interval < (3 / 2 : ℚ) ∧ (3 / 2 : ℚ) < ((1 : Nat) + 1) * exSet.interval := by decide +kernel

/-- the same adaptive, and with constant materials -/
example : Works exBuild exScheme { exSet with adaptive := true } 2 ∧ ∀ net t x,
    exScheme.adapt net t exSet.step exSet.interval x ≠ [] :=
  ⟨{ build := fun x hx => ⟨_, by unfold exBuild; rw [if_pos hx], rfl⟩
     stepBy := fun _ _ _ _ _ => rfl
     adapt := fun _ _ _ _ _ _ o ho => by simp [exScheme] at ho; subst ho; rfl
     interval := by decide +kernel
     window := by decide +kernel
     duration := by decide +kernel
     probs := by decide }, by simp [exScheme]⟩

example : (match solve exBuild exScheme 2 1000000 { exSet with tempDep := false } 0 with
  | some (.ok out) => (out.ok, out.samples.map Prod.fst)
  | _ => (false, [])) = (true, [2, 4]) := by decide +kernel

/-- the default interval -/
example : solve exBuild exScheme 2 1000000 { exSet with interval := 0 } 5 = some .ub :=
  c97_default_refuted 1000000 rfl (by decide +kernel) ⟨13 / 100, by decide +kernel⟩ 4

/-- a network with a node more than the model -/
example : solve exBuild { exScheme with size := fun _ => 3 } 2 1000000 exSet 5 = some (.ok ⟨false, 1000000, -1000000, []⟩) :=
  c97_size_refuted 1000000 (by decide +kernel) (by decide +kernel) (by decide +kernel) ⟨13 / 100, by decide +kernel, by decide⟩ 5
    (by decide +kernel)

/-- no probes -/
example : (match solve exBuild exScheme 2 1000000 { exSet with probs := [] } 5 with
  | some .ub => true
  | _ => false) = true := by decide +kernel

/-- an interval of the duration -/
example : (match solve exBuild exScheme 2 1000000 { exSet with interval := 4, step := 4 } 5 with
  | some (.ok out) => (out.ok, out.lo, out.hi)
  | _ => (false, 0, 0)) = (true, 1000000, -1000000) := by decide +kernel

/-- a reduced model of one state -/
def exReduced : Reduced ℚ where
  nodes _ := 2
  scheme := { exScheme with size := fun _ => 1 }
  toState _ x := [x.getD 0 0]
  output _ x := [x.getD 0 0]

example : solveR exBuild exReduced 2 1000000 exSet 5 = some .ub :=
  c97_reduced_refuted (n := 2) exReduced 1000000 rfl (by decide +kernel) (by decide +kernel) (by decide +kernel) (by decide +kernel)
    (fun x hx => by unfold exBuild; rw [if_neg hx]) ⟨13 / 100, by decide +kernel, rfl⟩ (fun _ _ => rfl) (by decide) 3

example : (match solveR exBuild exReduced 2 1000000 { exSet with tempDep := false } 0 with
  | some (.ok (some out)) => (out.ok, out.lo)
  | _ => (false, 0)) = (true, 3187 / 10) := by decide +kernel

/-- a probe that is no node -/
example : solve exBuild exScheme 2 1000000 { exSet with tempDep := false, probs := [0, 2] } 0 = some .ub :=
  c97_probe_refuted 1000000 rfl rfl (by decide +kernel) (by decide +kernel) (13 / 100) (by decide +kernel) rfl (fun _ _ _ _ => rfl)
    ⟨2, by decide, le_refl _⟩ 2 (by decide +kernel) (by decide +kernel) (le_refl _) 0

example : solveR exBuild { exReduced with nodes := fun _ => 3 } 2 1000000 exSet 5 = some (.ok none) :=
  c97_reduced_size_refuted _ 1000000 (by decide +kernel) ⟨13 / 100, by decide +kernel, by decide⟩ 4

/-- without a step -/
example (out : Out) : solve exBuild exScheme 2 1000000 { exSet with step := 0 } 5 ≠ some (.ok out) :=
  c97_step_refuted 1000000 (by decide +kernel) (by decide +kernel) rfl 5 out

end Ecad.Trans
