import Verif.Basic.LookupModel
import Mathlib.Tactic.FieldSimp
import Mathlib.Tactic.Linarith
import Mathlib.Tactic.Ring
import Mathlib.Tactic.LinearCombination
import Mathlib.Data.List.Nodup
namespace Ecad
namespace Lookup

variable {K : Type} [Field K] [LinearOrder K] [IsStrictOrderedRing K]

def Sorted (t : Table K) : Prop := t.Pairwise (fun x y => x.1 < y.1)

theorem mem_addSample {t : Table K} {key value : K} {e : K × K} (h : e ∈ addSample t key value) :
    e = (key, value) ∨ e ∈ t := by
  induction t with
  | nil => simpa [addSample] using h
  | cons x xs ih =>
    simp only [addSample] at h
    split at h
    · simpa using h
    · split at h
      · rcases List.mem_cons.1 h with h | h
        · simp [h]
        · rcases ih h with h | h
          · exact Or.inl h
          · simp [h]
      · exact Or.inr h

theorem sorted_addSample {t : Table K} (h : Sorted t) (key value : K) :
    Sorted (addSample t key value) := by
  induction t with
  | nil => simp [addSample, Sorted]
  | cons x xs ih =>
    have h' := List.pairwise_cons.1 h
    simp only [addSample]
    split
    · rename_i hlt
      refine List.Pairwise.cons ?_ h
      intro y hy
      rcases List.mem_cons.1 hy with rfl | hy
      · exact hlt
      · exact lt_trans hlt (h'.1 y hy)
    · split
      · rename_i hlt
        refine List.Pairwise.cons ?_ (ih h'.2)
        intro y hy
        rcases mem_addSample hy with rfl | hy
        · exact hlt
        · exact h'.1 y hy
      · exact h

theorem mem_addSample_iff {t : Table K} (h : Sorted t) {key value : K} {e : K × K} :
    e ∈ addSample t key value ↔ e ∈ t ∨ (e = (key, value) ∧ ∀ x ∈ t, x.1 ≠ key) := by
  induction t with
  | nil => simp [addSample]
  | cons x xs ih =>
    have h' := List.pairwise_cons.1 h
    simp only [addSample]
    split
    · rename_i hlt
      simp only [List.mem_cons]
      constructor
      · rintro (h1 | h1)
        · right
          refine ⟨h1, ?_⟩
          rintro y (rfl | hy)
          · exact ne_of_gt hlt
          · exact ne_of_gt (lt_trans hlt (h'.1 y hy))
        · exact Or.inl h1
      · rintro (h1 | h1)
        · exact Or.inr h1
        · exact Or.inl h1.1
    · split
      · rename_i hlt
        simp only [List.mem_cons, ih h'.2]
        constructor
        · rintro (h1 | h1 | ⟨h1, h2⟩)
          · exact Or.inl (Or.inl h1)
          · exact Or.inl (Or.inr h1)
          · right
            refine ⟨h1, ?_⟩
            rintro y (rfl | hy)
            · exact ne_of_lt hlt
            · exact h2 y hy
        · rintro ((h1 | h1) | ⟨h1, h2⟩)
          · exact Or.inl h1
          · exact Or.inr (Or.inl h1)
          · exact Or.inr (Or.inr ⟨h1, fun y hy => h2 y (Or.inr hy)⟩)
      · rename_i h1 h2
        constructor
        · exact Or.inl
        · rintro (h3 | ⟨_, h3⟩)
          · exact h3
          · exact absurd (le_antisymm (not_lt.1 h1) (not_lt.1 h2)) (h3 x (by simp))

theorem sorted_build {t : Table K} (h : Sorted t) (s : List (K × K)) : Sorted (build t s) := by
  induction s generalizing t with
  | nil => exact h
  | cons e es ih => exact ih (sorted_addSample h _ _)

theorem mem_build {t : Table K} (h : Sorted t) (s : List (K × K)) {e : K × K} :
    e ∈ build t s ↔ e ∈ t ∨ ((∀ x ∈ t, x.1 ≠ e.1) ∧ s.find? (fun x => x.1 = e.1) = some e) := by
  induction s generalizing t with
  | nil => simp [build]
  | cons a as ih =>
    have hb : build t (a :: as) = build (addSample t a.1 a.2) as := rfl
    rw [hb, ih (sorted_addSample h _ _), mem_addSample_iff h]
    have hx : ∀ x, x ∈ addSample t a.1 a.2 ↔ _ := fun x => mem_addSample_iff h
    by_cases hae : a.1 = e.1
    · rw [List.find?_cons_of_pos (by simpa using hae)]
      constructor
      · rintro ((h1 | ⟨h1, h2⟩) | ⟨h1, h2⟩)
        · exact Or.inl h1
        · right; subst h1; exact ⟨h2, rfl⟩
        · exfalso
          by_cases hin : ∀ x ∈ t, x.1 ≠ a.1
          · exact h1 (a.1, a.2) ((hx _).2 (Or.inr ⟨rfl, hin⟩)) hae
          · push Not at hin
            obtain ⟨x, hxt, hxa⟩ := hin
            exact h1 x ((hx _).2 (Or.inl hxt)) (hxa.trans hae)
      · rintro (h1 | ⟨h1, h2⟩)
        · exact Or.inl (Or.inl h1)
        · simp only [Option.some.injEq] at h2
          subst h2
          exact Or.inl (Or.inr ⟨rfl, h1⟩)
    · rw [List.find?_cons_of_neg (by simpa using hae)]
      constructor
      · rintro ((h1 | ⟨h1, h2⟩) | ⟨h1, h2⟩)
        · exact Or.inl h1
        · exact absurd (by rw [h1]) hae
        · exact Or.inr ⟨fun x hxt => h1 x ((hx _).2 (Or.inl hxt)), h2⟩
      · rintro (h1 | ⟨h1, h2⟩)
        · exact Or.inl (Or.inl h1)
        · right
          refine ⟨?_, h2⟩
          intro x hxm
          rcases (hx _).1 hxm with h3 | ⟨h3, _⟩
          · exact h1 x h3
          · rw [h3]; exact hae

theorem seek_spec {key : K} {l : K × K} {r : Table K} (hl : l.1 < key) (hr : r ≠ [])
    (hlast : key ≤ (r.getLast hr).1) :
    ∃ pre l' h' post, l :: r = pre ++ l' :: h' :: post ∧ l'.1 < key ∧ key ≤ h'.1 ∧
      seek key l r = .ok (interp l' h' key) := by
  induction r generalizing l with
  | nil => exact absurd rfl hr
  | cons h r ih =>
    simp only [seek]
    split
    · rename_i hlt
      have hr' : r ≠ [] := by
        rintro rfl
        simp only [List.getLast_singleton] at hlast
        exact absurd hlast (not_le.2 hlt)
      rw [List.getLast_cons hr'] at hlast
      obtain ⟨pre, l', h', post, h1, h2, h3, h4⟩ := ih hlt hr' hlast
      exact ⟨l :: pre, l', h', post, by rw [h1]; rfl, h2, h3, h4⟩
    · rename_i hge
      exact ⟨[], l, h, r, rfl, hl, not_lt.1 hge, rfl⟩

theorem le_getLast {t : Table K} (h : Sorted t) (hne : t ≠ []) {e : K × K} (he : e ∈ t) :
    e.1 ≤ (t.getLast hne).1 := by
  induction t with
  | nil => simp at he
  | cons x xs ih =>
    have h' := List.pairwise_cons.1 h
    cases xs with
    | nil => simp at he; simp [he]
    | cons y ys =>
      rw [List.getLast_cons (by simp)]
      rcases List.mem_cons.1 he with rfl | he
      · exact le_of_lt (h'.1 _ (List.getLast_mem _))
      · exact ih h'.2 (by simp) he

/-- the three ways in which a lookup is answered -/
theorem lookup_cases {t : Table K} (hs : Sorted t) (hne : t ≠ []) (key : K) :
    ∃ v, lookup t key = .ok v ∧
      ((∃ e ∈ t, (∀ x ∈ t, e.1 ≤ x.1) ∧ key ≤ e.1 ∧ v = e.2) ∨
       (∃ e ∈ t, (∀ x ∈ t, x.1 ≤ e.1) ∧ e.1 ≤ key ∧ v = e.2) ∨
       (∃ pre l h post, t = pre ++ l :: h :: post ∧ l.1 < key ∧ key ≤ h.1 ∧ v = interp l h key)) := by
  match t, hs, hne with
  | [], _, hne => exact absurd rfl hne
  | [e], _, _ =>
    refine ⟨e.2, rfl, ?_⟩
    rcases le_total key e.1 with h | h
    · left; exact ⟨e, by simp, by simp, h, rfl⟩
    · right; left; exact ⟨e, by simp, by simp, h, rfl⟩
  | e :: e' :: r, hs, _ =>
    have h' := List.pairwise_cons.1 hs
    have hleast : ∀ x ∈ e :: e' :: r, e.1 ≤ x.1 := by
      intro x hx
      rcases List.mem_cons.1 hx with rfl | hx
      · exact le_rfl
      · exact le_of_lt (h'.1 x hx)
    simp only [lookup]
    split
    · rename_i hlt
      exact ⟨e.2, rfl, Or.inl ⟨e, by simp, hleast, le_of_lt hlt, rfl⟩⟩
    · split
      · rename_i hlt
        refine ⟨_, rfl, Or.inr (Or.inl ⟨(e' :: r).getLast (by simp), ?_, ?_, le_of_lt hlt, rfl⟩)⟩
        · exact List.mem_cons_of_mem _ (List.getLast_mem _)
        · intro x hx
          have := le_getLast hs (by simp) hx
          rwa [List.getLast_cons (by simp)] at this
      · split
        · rename_i hge
          refine ⟨e.2, rfl, Or.inl ⟨e, by simp, hleast, not_lt.1 hge, rfl⟩⟩
        · rename_i hlast hlt
          obtain ⟨pre, l', h2, post, h3, h4, h5, h6⟩ :=
            seek_spec (not_not.1 hlt) (by simp) (not_lt.1 hlast)
          exact ⟨_, h6, Or.inr (Or.inr ⟨pre, l', h2, post, h3, h4, h5, rfl⟩)⟩

theorem interp_right {l h : K × K} (hlt : l.1 < h.1) : interp l h h.1 = h.2 := by
  unfold interp
  have : h.1 - l.1 ≠ 0 := ne_of_gt (sub_pos.2 hlt)
  field_simp
  ring

theorem interp_left (l h : K × K) : interp l h l.1 = l.2 := by
  unfold interp; simp

theorem interp_line {l h : K × K} (hlt : l.1 < h.1) (key : K) :
    (interp l h key - l.2) * (h.1 - l.1) = (key - l.1) * (h.2 - l.2) := by
  unfold interp
  have : h.1 - l.1 ≠ 0 := ne_of_gt (sub_pos.2 hlt)
  field_simp
  ring

theorem interp_mem {l h : K × K} (hlt : l.1 < h.1) {key lo hi : K} (h1 : l.1 ≤ key) (h2 : key ≤ h.1)
    (hl : lo ≤ l.2 ∧ l.2 ≤ hi) (hh : lo ≤ h.2 ∧ h.2 ≤ hi) :
    lo ≤ interp l h key ∧ interp l h key ≤ hi := by
  have hd : 0 < h.1 - l.1 := sub_pos.2 hlt
  have hline := interp_line hlt key
  have ha : 0 ≤ key - l.1 := sub_nonneg.2 h1
  have hb : 0 ≤ h.1 - key := sub_nonneg.2 h2
  have e : interp l h key * (h.1 - l.1) = l.2 * (h.1 - key) + h.2 * (key - l.1) := by
    linear_combination hline
  constructor
  · by_contra hc
    push Not at hc
    have h3 : interp l h key * (h.1 - l.1) < lo * (h.1 - l.1) := mul_lt_mul_of_pos_right hc hd
    have h4 := mul_le_mul_of_nonneg_right hl.1 hb
    have h5 := mul_le_mul_of_nonneg_right hh.1 ha
    rw [e] at h3
    linarith
  · by_contra hc
    push Not at hc
    have h3 : hi * (h.1 - l.1) < interp l h key * (h.1 - l.1) := mul_lt_mul_of_pos_right hc hd
    have h4 := mul_le_mul_of_nonneg_right hl.2 hb
    have h5 := mul_le_mul_of_nonneg_right hh.2 ha
    rw [e] at h3
    linarith

theorem interp_mono {l h : K × K} (hlt : l.1 < h.1) (hv : l.2 ≤ h.2) {k1 k2 : K} (hk : k1 ≤ k2) :
    interp l h k1 ≤ interp l h k2 := by
  unfold interp
  have hd : 0 < h.1 - l.1 := sub_pos.2 hlt
  have : (k1 - l.1) * (h.2 - l.2) / (h.1 - l.1) ≤ (k2 - l.1) * (h.2 - l.2) / (h.1 - l.1) := by
    apply div_le_div_of_nonneg_right _ hd.le
    apply mul_le_mul_of_nonneg_right _ (sub_nonneg.2 hv)
    linarith
  linarith

/-- neighbours in a sorted table -/
theorem consec {t : Table K} (hs : Sorted t) {pre post : Table K} {l h : K × K}
    (ht : t = pre ++ l :: h :: post) :
    l ∈ t ∧ h ∈ t ∧ l.1 < h.1 ∧ ∀ x ∈ t, x.1 ≤ l.1 ∨ h.1 ≤ x.1 := by
  subst ht
  unfold Sorted at hs
  rw [List.pairwise_append] at hs
  obtain ⟨_, h2, h3⟩ := hs
  rw [List.pairwise_cons, List.pairwise_cons] at h2
  refine ⟨by simp, by simp, h2.1 h (by simp), ?_⟩
  intro x hx
  rcases List.mem_append.1 hx with hx | hx
  · left; exact le_of_lt (h3 x hx l (by simp))
  · rcases List.mem_cons.1 hx with rfl | hx
    · left; exact le_rfl
    · rcases List.mem_cons.1 hx with rfl | hx
      · right; exact le_rfl
      · right; exact le_of_lt (h2.2.1 x hx)

theorem key_inj {t : Table K} (hs : Sorted t) {x y : K × K} (hx : x ∈ t) (hy : y ∈ t)
    (h : x.1 = y.1) : x = y := by
  have hinj : (t.map Prod.fst).Nodup := by
    unfold Sorted at hs
    rw [List.Nodup, List.pairwise_map]
    exact hs.imp (fun h => ne_of_lt h)
  exact List.inj_on_of_nodup_map hinj hx hy h

end Lookup
end Ecad
