import Verif.Basic.LookupLemmas
import Mathlib.Tactic.NormNum
import Mathlib.Algebra.Order.Ring.Rat
/-!
C10: interpolated table lookups.
-/
namespace Ecad
namespace Lookup

variable {K : Type} [Field K] [LinearOrder K] [IsStrictOrderedRing K]

/-- The sample kept for a point: the first one given. -/
def Kept (s : List (K × K)) (e : K × K) : Prop := s.find? (fun x => x.1 = e.1) = some e

/-- **C10.** A table filled with the samples `s` (in this order, at least one), queried at any
point, returns a value (no undefined behaviour) such that: at a kept sample it is that sample's
value; at or below the least and at or above the greatest sample point it is the value of that
sample; between two neighbouring samples it lies on the line through them; it lies within any bounds
satisfied by all kept samples. -/
theorem c10_lookup (s : List (K × K)) (hne : s ≠ []) (key : K) :
    ∃ v, lookup (build [] s) key = .ok v ∧
      (∀ e, Kept s e → e.1 = key → v = e.2) ∧
      (∀ e, Kept s e → (∀ x ∈ s, e.1 ≤ x.1) → key ≤ e.1 → v = e.2) ∧
      (∀ e, Kept s e → (∀ x ∈ s, x.1 ≤ e.1) → e.1 ≤ key → v = e.2) ∧
      (∀ l h, Kept s l → Kept s h → l.1 < h.1 → (∀ x ∈ s, x.1 ≤ l.1 ∨ h.1 ≤ x.1) →
        l.1 ≤ key → key ≤ h.1 → (v - l.2) * (h.1 - l.1) = (key - l.1) * (h.2 - l.2)) ∧
      (∀ lo hi, (∀ e, Kept s e → lo ≤ e.2 ∧ e.2 ≤ hi) → lo ≤ v ∧ v ≤ hi) := by
  have hs : Sorted (build ([] : Table K) s) := sorted_build (by simp [Sorted]) s
  have hmem : ∀ e, e ∈ build [] s ↔ Kept s e := by
    intro e
    rw [mem_build (by simp [Sorted])]
    simp [Kept]
  have hkeys : ∀ x ∈ s, ∃ e, Kept s e ∧ e.1 = x.1 := by
    intro x hx
    cases hf : s.find? (fun y => y.1 = x.1) with
    | none =>
      rw [List.find?_eq_none] at hf
      exact absurd (by simp) (hf x hx)
    | some e =>
      have := List.find?_some hf
      simp only [decide_eq_true_eq] at this
      exact ⟨e, by rw [Kept, this]; exact hf, this⟩
  have hks : ∀ e, Kept s e → e ∈ s := fun e he => List.mem_of_find?_eq_some he
  have hne' : build [] s ≠ [] := by
    intro h0
    cases s with
    | nil => exact hne rfl
    | cons x xs =>
      obtain ⟨e, he, _⟩ := hkeys x (by simp)
      have := (hmem e).2 he
      rw [h0] at this; simp at this
  -- comparisons against samples may be made against the table
  have hlow : ∀ e : K × K, (∀ x ∈ s, e.1 ≤ x.1) ↔ ∀ x ∈ build [] s, e.1 ≤ x.1 := by
    intro e
    constructor
    · intro h x hx; exact h x (hks x ((hmem x).1 hx))
    · intro h x hx
      obtain ⟨y, hy, hyx⟩ := hkeys x hx
      rw [← hyx]; exact h y ((hmem y).2 hy)
  have hhigh : ∀ e : K × K, (∀ x ∈ s, x.1 ≤ e.1) ↔ ∀ x ∈ build [] s, x.1 ≤ e.1 := by
    intro e
    constructor
    · intro h x hx; exact h x (hks x ((hmem x).1 hx))
    · intro h x hx
      obtain ⟨y, hy, hyx⟩ := hkeys x hx
      rw [← hyx]; exact h y ((hmem y).2 hy)
  obtain ⟨v, hv, hcases⟩ := lookup_cases hs hne' key
  refine ⟨v, hv, ?_, ?_, ?_, ?_, ?_⟩
  · intro e he hek
    have he' := (hmem e).2 he
    rcases hcases with ⟨x, hx, h1, h2, rfl⟩ | ⟨x, hx, h1, h2, rfl⟩ | ⟨pre, l, h, post, ht, h1, h2, rfl⟩
    · have : x = e := key_inj hs hx he' (le_antisymm (h1 e he') (hek ▸ h2))
      rw [this]
    · have : x = e := key_inj hs hx he' (le_antisymm (hek ▸ h2) (h1 e he'))
      rw [this]
    · obtain ⟨g1, g2, g3, g4⟩ := consec hs ht
      rcases g4 e he' with h3 | h3
      · exact absurd (hek ▸ h3) (not_le.2 h1)
      · have hk : h.1 = key := le_antisymm (hek ▸ h3) h2
        have : h = e := key_inj hs g2 he' (hk.trans hek.symm)
        rw [← hk, interp_right g3, this]
  · intro e he hl hk
    have he' := (hmem e).2 he
    have hl' := (hlow e).1 hl
    rcases hcases with ⟨x, hx, h1, h2, rfl⟩ | ⟨x, hx, h1, h2, rfl⟩ | ⟨pre, l, h, post, ht, h1, h2, rfl⟩
    · have : x = e := key_inj hs hx he' (le_antisymm (h1 e he') (hl' x hx))
      rw [this]
    · have : x = e := key_inj hs hx he' (le_antisymm (h2.trans hk) (hl' x hx))
      rw [this]
    · obtain ⟨g1, g2, g3, g4⟩ := consec hs ht
      exact absurd (hk.trans (hl' l g1)) (not_le.2 h1)
  · intro e he hl hk
    have he' := (hmem e).2 he
    have hl' := (hhigh e).1 hl
    rcases hcases with ⟨x, hx, h1, h2, rfl⟩ | ⟨x, hx, h1, h2, rfl⟩ | ⟨pre, l, h, post, ht, h1, h2, rfl⟩
    · have : x = e := key_inj hs hx he' (le_antisymm (hl' x hx) (hk.trans h2))
      rw [this]
    · have : x = e := key_inj hs hx he' (le_antisymm (hl' x hx) (h1 e he'))
      rw [this]
    · obtain ⟨g1, g2, g3, g4⟩ := consec hs ht
      have h3 : key = h.1 := le_antisymm h2 ((hl' h g2).trans hk)
      have : h = e := key_inj hs g2 he' (le_antisymm (hl' h g2) (hk.trans h2))
      rw [h3, interp_right g3, this]
  · intro l h hl hh hlt hno h1 h2
    have hl' := (hmem l).2 hl
    have hh' := (hmem h).2 hh
    have hno' : ∀ x ∈ build [] s, x.1 ≤ l.1 ∨ h.1 ≤ x.1 :=
      fun x hx => hno x (hks x ((hmem x).1 hx))
    rcases hcases with ⟨x, hx, g1, g2, rfl⟩ | ⟨x, hx, g1, g2, rfl⟩ | ⟨pre, a, b, post, ht, g1, g2, rfl⟩
    · have h3 : key = l.1 := le_antisymm (g2.trans (g1 l hl')) h1
      have : x = l := key_inj hs hx hl' (le_antisymm (g1 l hl') (h1.trans g2))
      rw [this, h3]; ring
    · have h3 : key = h.1 := le_antisymm h2 ((g1 h hh').trans g2)
      have : x = h := key_inj hs hx hh' (le_antisymm (g2.trans h2) (g1 h hh'))
      rw [this, h3]; ring
    · obtain ⟨k1, k2, k3, k4⟩ := consec hs ht
      by_cases hkl : key = l.1
      · -- then the upper neighbour is `l` itself
        have : b = l := by
          rcases k4 l hl' with h5 | h5
          · exact absurd (hkl ▸ g1) (not_lt.2 h5)
          · exact key_inj hs k2 hl' (le_antisymm h5 (hkl ▸ g2))
        rw [this] at k3 ⊢
        rw [hkl, interp_right k3]; ring
      · have hlk : l.1 < key := lt_of_le_of_ne h1 (Ne.symm hkl)
        have ha : a = l := by
          apply key_inj hs k1 hl'
          apply le_antisymm
          · rcases hno' a k1 with h5 | h5
            · exact h5
            · exact absurd (h2.trans h5) (not_le.2 g1)
          · rcases k4 l hl' with h5 | h5
            · exact h5
            · exact absurd (g2.trans h5) (not_le.2 hlk)
        have hb : b = h := by
          apply key_inj hs k2 hh'
          apply le_antisymm
          · rcases k4 h hh' with h5 | h5
            · exact absurd (h5.trans (ha ▸ le_rfl)) (not_le.2 hlt)
            · exact h5
          · rcases hno' b k2 with h5 | h5
            · exact absurd (g2.trans h5) (not_le.2 hlk)
            · exact h5
        rw [ha, hb]
        exact interp_line hlt key
  · intro lo hi hb
    have hb' : ∀ e ∈ build [] s, lo ≤ e.2 ∧ e.2 ≤ hi := fun e he => hb e ((hmem e).1 he)
    rcases hcases with ⟨x, hx, h1, h2, rfl⟩ | ⟨x, hx, h1, h2, rfl⟩ | ⟨pre, l, h, post, ht, h1, h2, rfl⟩
    · exact hb' x hx
    · exact hb' x hx
    · obtain ⟨g1, g2, g3, g4⟩ := consec hs ht
      exact interp_mem g3 h1.le h2 (hb' l g1) (hb' h g2)

/-- **C10** (monotonicity).  If the kept samples are non-decreasing, so is the lookup. -/
theorem c10_monotone (s : List (K × K))
    (hmono : ∀ e e', Kept s e → Kept s e' → e.1 ≤ e'.1 → e.2 ≤ e'.2)
    (k1 k2 v1 v2 : K) (hk : k1 ≤ k2)
    (h1 : lookup (build [] s) k1 = .ok v1) (h2 : lookup (build [] s) k2 = .ok v2) : v1 ≤ v2 := by
  have hs : Sorted (build ([] : Table K) s) := sorted_build (by simp [Sorted]) s
  have hmem : ∀ e, e ∈ build [] s ↔ Kept s e := by
    intro e
    rw [mem_build (by simp [Sorted])]
    simp [Kept]
  have hm : ∀ e ∈ build [] s, ∀ e' ∈ build [] s, e.1 ≤ e'.1 → e.2 ≤ e'.2 :=
    fun e he e' he' => hmono e e' ((hmem e).1 he) ((hmem e').1 he')
  by_cases hne : build [] s = []
  · rw [hne] at h1 h2
    simp only [lookup, Res.ok.injEq] at h1 h2
    rw [← h1, ← h2]
  -- every answer lies between the samples on its two sides
  have bounds : ∀ k v, lookup (build [] s) k = .ok v →
      (∀ x ∈ build [] s, x.1 ≤ k → x.2 ≤ v) ∧ (∀ x ∈ build [] s, k ≤ x.1 → v ≤ x.2) := by
    intro k v hv
    obtain ⟨v', hv', hc⟩ := lookup_cases hs hne k
    rw [hv] at hv'
    simp only [Res.ok.injEq] at hv'
    subst hv'
    rcases hc with ⟨x, hx, g1, g2, rfl⟩ | ⟨x, hx, g1, g2, rfl⟩ | ⟨pre, l, h, post, ht, g1, g2, rfl⟩
    · exact ⟨fun y hy hyk => hm y hy x hx (hyk.trans g2), fun y hy hky => hm x hx y hy (g1 y hy)⟩
    · exact ⟨fun y hy hyk => hm y hy x hx (g1 y hy), fun y hy hky => hm x hx y hy (g2.trans hky)⟩
    · obtain ⟨k1, k2, k3, k4⟩ := consec hs ht
      have hlh := hm l k1 h k2 k3.le
      have hb := interp_mem k3 g1.le g2 ⟨le_rfl, hlh⟩ ⟨hlh, le_rfl⟩
      constructor
      · intro y hy hyk
        rcases k4 y hy with h5 | h5
        · exact (hm y hy l k1 h5).trans hb.1
        · have hkh : k = h.1 := le_antisymm g2 (h5.trans hyk)
          rw [hkh, interp_right k3]
          exact hm y hy h k2 (hyk.trans g2)
      · intro y hy hky
        rcases k4 y hy with h5 | h5
        · exact absurd (hky.trans h5) (not_le.2 g1)
        · exact hb.2.trans (hm h k2 y hy h5)
  by_cases hmid : ∃ x ∈ build [] s, k1 ≤ x.1 ∧ x.1 ≤ k2
  · obtain ⟨x, hx, hx1, hx2⟩ := hmid
    exact ((bounds k1 v1 h1).2 x hx hx1).trans ((bounds k2 v2 h2).1 x hx hx2)
  have hno : ∀ x ∈ build [] s, k1 ≤ x.1 → k2 < x.1 :=
    fun x hx hx1 => not_le.1 (fun hx2 => hmid ⟨x, hx, hx1, hx2⟩)
  obtain ⟨v', hv', hc1⟩ := lookup_cases hs hne k1
  rw [h1] at hv'
  simp only [Res.ok.injEq] at hv'
  subst hv'
  obtain ⟨v', hv', hc2⟩ := lookup_cases hs hne k2
  rw [h2] at hv'
  simp only [Res.ok.injEq] at hv'
  subst hv'
  rcases hc1 with ⟨x, hx, g1, g2, rfl⟩ | ⟨x, hx, g1, g2, rfl⟩ | ⟨pre, l, h, post, ht, g1, g2, rfl⟩
  · rcases hc2 with ⟨y, hy, e1, e2, rfl⟩ | ⟨y, hy, e1, e2, rfl⟩ | ⟨pre', l', h', post', ht', e1, e2, rfl⟩
    · exact hm x hx y hy (g1 y hy)
    · exact hm x hx y hy (g1 y hy)
    · obtain ⟨c1, _, _, _⟩ := consec hs ht'
      exact absurd (hno l' c1 (g2.trans (g1 l' c1))) (not_lt.2 e1.le)
  · rcases hc2 with ⟨y, hy, e1, e2, rfl⟩ | ⟨y, hy, e1, e2, rfl⟩ | ⟨pre', l', h', post', ht', e1, e2, rfl⟩
    · exact absurd (hno y hy (hk.trans e2)) (not_lt.2 ((e1 x hx).trans (g2.trans hk)))
    · exact hm x hx y hy (e1 x hx)
    · obtain ⟨_, c2, _, _⟩ := consec hs ht'
      exact absurd (hno h' c2 (hk.trans e2)) (not_lt.2 ((g1 h' c2).trans (g2.trans hk)))
  · obtain ⟨b1, b2, b3, b4⟩ := consec hs ht
    have hk2 := hno h b2 g2
    rcases hc2 with ⟨y, hy, e1, e2, rfl⟩ | ⟨y, hy, e1, e2, rfl⟩ | ⟨pre', l', h', post', ht', e1, e2, rfl⟩
    · exact absurd ((e2.trans (e1 l b1)).trans_lt g1) (not_lt.2 hk)
    · exact absurd ((e1 h b2).trans e2) (not_le.2 hk2)
    · obtain ⟨c1, c2, c3, c4⟩ := consec hs ht'
      have hl : l = l' := by
        apply key_inj hs b1 c1
        apply le_antisymm
        · rcases c4 l b1 with h5 | h5
          · exact h5
          · exact absurd (e2.trans h5) (not_le.2 (g1.trans_le hk))
        · rcases b4 l' c1 with h5 | h5
          · exact h5
          · exact absurd (h5.trans e1.le) (not_le.2 hk2)
      have hh : h = h' := by
        apply key_inj hs b2 c2
        apply le_antisymm
        · rcases b4 h' c2 with h5 | h5
          · exact absurd (e2.trans h5) (not_le.2 (g1.trans_le hk))
          · exact h5
        · rcases c4 h b2 with h5 | h5
          · exact absurd (h5.trans e1.le) (not_le.2 hk2)
          · exact h5
      rw [← hl, ← hh]
      exact interp_mono b3 (hm l b1 h b2 b3.le) hk

/-- Samples given out of order, one of them twice. -/
example : Kept [((2 : ℚ), (20 : ℚ)), (1, 10), (2, 99), (4, 30)] (2, 20) ∧
    ¬ Kept [((2 : ℚ), (20 : ℚ)), (1, 10), (2, 99), (4, 30)] (2, 99) ∧
    lookup (build [] [((2 : ℚ), (20 : ℚ)), (1, 10), (2, 99), (4, 30)]) 3 = .ok 25 := by
  refine ⟨?_, ?_, ?_⟩
  · unfold Kept; norm_num
  · unfold Kept; norm_num
  · norm_num [build, addSample, lookup, seek, interp]

end Lookup
end Ecad
