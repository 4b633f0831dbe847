import Verif.Thermal.BondsModel
import Mathlib.Tactic.Linarith
import Mathlib.Tactic.NormNum
/-!
C50.
-/
namespace Ecad.Thermal

theorem run_same (s : Sampler) (ts : List ℚ) : (s.run ts).start = s.start ∧ (s.run ts).stop = s.stop ∧
    (s.run ts).interval = s.interval := by
  induction ts generalizing s with
  | nil => exact ⟨rfl, rfl, rfl⟩
  | cons t ts ih =>
    have := ih (s.observe t)
    have h : (s.observe t).start = s.start ∧ (s.observe t).stop = s.stop ∧ (s.observe t).interval = s.interval := by
      unfold Sampler.observe
      split
      · simp only; split <;> exact ⟨rfl, rfl, rfl⟩
      · exact ⟨rfl, rfl, rfl⟩
    exact ⟨this.1.trans h.1, this.2.1.trans h.2.1, this.2.2.trans h.2.2⟩

/-- Before the window the sampler is unchanged, inside it `count` is the time since the last sample or the
start, after it nothing changes any more.  `base` is the time of the last sample so far. -/
theorem run_spec (ts : List ℚ) : ∀ (s : Sampler) (base : ℚ), 0 ≤ s.interval → s.count = s.prev - base →
    ts.Pairwise (· ≤ ·) →
    ∃ new, (s.run ts).samples = s.samples ++ new ∧ (∀ t ∈ new, t ∈ ts ∧ s.start ≤ t ∧ t ≤ s.stop) ∧
      List.IsChain (fun a b => b - a > s.interval) (base :: new) := by
  induction ts with
  | nil =>
    intro s base _ _ _
    exact ⟨[], by simp [Sampler.run], by simp, by simp⟩
  | cons t ts ih =>
    intro s base hi hc hs
    rw [List.pairwise_cons] at hs
    show ∃ new, ((s.observe t).run ts).samples = _ ∧ _
    by_cases hw : s.start ≤ t ∧ t ≤ s.stop
    · by_cases hg : s.count + (t - s.prev) > s.interval
      · have he : s.observe t = { s with samples := s.samples ++ [t], count := 0, prev := t } := by
          unfold Sampler.observe; rw [if_pos hw]; simp only; rw [if_pos hg]
        rw [he]
        obtain ⟨new, n1, n2, n3⟩ := ih { s with samples := s.samples ++ [t], count := 0, prev := t } t hi
          (by simp) hs.2
        refine ⟨t :: new, ?_, ?_, ?_⟩
        · rw [n1]; simp
        · intro u hu
          rcases List.mem_cons.1 hu with rfl | hu
          · exact ⟨by simp, hw⟩
          · obtain ⟨h1, h2⟩ := n2 u hu
            exact ⟨by simp [h1], h2⟩
        · rw [List.isChain_cons_cons]
          refine ⟨?_, n3⟩
          rw [hc] at hg
          linarith
      · have he : s.observe t = { s with count := s.count + (t - s.prev), prev := t } := by
          unfold Sampler.observe; rw [if_pos hw]; simp only; rw [if_neg hg]
        rw [he]
        obtain ⟨new, n1, n2, n3⟩ := ih { s with count := s.count + (t - s.prev), prev := t } base hi
          (by simp only; rw [hc]; ring) hs.2
        refine ⟨new, n1, ?_, n3⟩
        intro u hu
        obtain ⟨h1, h2⟩ := n2 u hu
        exact ⟨by simp [h1], h2⟩
    · have he : s.observe t = s := by unfold Sampler.observe; rw [if_neg hw]
      rw [he]
      obtain ⟨new, n1, n2, n3⟩ := ih s base hi hc hs.2
      refine ⟨new, n1, ?_, n3⟩
      intro u hu
      obtain ⟨h1, h2⟩ := n2 u hu
      exact ⟨by simp [h1], h2⟩

/-- **C50.** For every window, interval, earlier samples and non-decreasing sequence of solver times: the
earlier samples are kept; the new ones are times of the solver inside the window; each is more
than the interval after the one before — the first after the last earlier one, or after time zero if
there is none —; so they are strictly increasing. -/
theorem c50_samples (start stop interval : ℚ) (hi : 0 ≤ interval) (old ts : List ℚ)
    (hts : ts.Pairwise (· ≤ ·)) :
    ∃ new, ((Sampler.new start stop interval old).run ts).samples = old ++ new ∧
      (∀ t ∈ new, t ∈ ts ∧ start ≤ t ∧ t ≤ stop) ∧
      List.IsChain (fun a b => b - a > interval) (old.getLast?.getD 0 :: new) ∧ new.Pairwise (· < ·) := by
  obtain ⟨new, n1, n2, n3⟩ := run_spec ts (Sampler.new start stop interval old) (old.getLast?.getD 0) hi
    (by simp [Sampler.new]) hts
  refine ⟨new, n1, n2, n3, ?_⟩
  have hlt : List.IsChain (fun a b : ℚ => a < b) (old.getLast?.getD 0 :: new) := by
    apply n3.imp
    intro a b h
    have h' : b - a > interval := h
    linarith
  have := (List.isChain_iff_pairwise.1 hlt)
  exact (List.pairwise_cons.1 this).2

/-- Nothing is lost: a solver time inside the window more than the interval after every sample taken
before it is recorded. -/
theorem c50_complete (start stop interval : ℚ) (hi : 0 ≤ interval) (old ts : List ℚ) (t : ℚ)
    (hts : (ts ++ [t]).Pairwise (· ≤ ·)) (hin : start ≤ t ∧ t ≤ stop)
    (hall : ∀ u ∈ 0 :: ((Sampler.new start stop interval old).run ts).samples, u + interval < t) :
    t ∈ ((Sampler.new start stop interval old).run (ts ++ [t])).samples := by
  -- `count` is the time from the last sample to the last step in the window
  have key : ∀ (ts : List ℚ) (s : Sampler), (s.count = s.prev - s.samples.getLast?.getD 0) →
      ((s.run ts).count = (s.run ts).prev - (s.run ts).samples.getLast?.getD 0) := by
    intro ts
    induction ts with
    | nil => intro s h; exact h
    | cons u ts ih =>
      intro s h
      apply ih (s.observe u)
      unfold Sampler.observe
      by_cases hw : s.start ≤ u ∧ u ≤ s.stop
      · rw [if_pos hw]
        simp only
        split
        · simp
        · simp only; rw [h]; ring
      · rw [if_neg hw]; exact h
  have hk := key ts (Sampler.new start stop interval old) (by simp [Sampler.new])
  have hsame := run_same (Sampler.new start stop interval old) ts
  rw [Sampler.run, List.foldl_append]
  show t ∈ (Sampler.observe ((Sampler.new start stop interval old).run ts) t).samples
  generalize hs : (Sampler.new start stop interval old).run ts = s at *
  obtain ⟨h1, h2, h3⟩ := hsame
  unfold Sampler.observe
  rw [if_pos (by rw [h1, h2]; exact hin)]
  simp only
  rw [if_pos]
  · simp
  · rw [hk, h3]
    have : s.samples.getLast?.getD 0 ∈ 0 :: s.samples := by
      cases hl : s.samples.getLast? with
      | none => simp
      | some v => simp [List.mem_of_getLast? hl]
    have := hall _ this
    show (Sampler.new start stop interval old).interval < _
    simp only [Sampler.new]
    linarith

/-- example: samples more than two apart from the window [3, 9] -/
example : ((Sampler.new 3 9 2 []).run [0, 1, 2, 3, 4, 5, 6, 7, 8, 9, 10]).samples = [3, 6, 9] := by
  decide +kernel

end Ecad.Thermal
