import Verif.Ctm.StackModel
import Mathlib.Tactic.Linarith
import Mathlib.Data.List.Dedup
import Mathlib.Tactic.Ring
/-!
C40: the layer stackup of a chip thermal model.
-/
namespace Ecad.Ctm

variable {K : Type} [Field K] [LinearOrder K]

/-! ## positions of layers -/

/-- C40: a metal layer is where the header says -/
theorem c40_metal {metals : List (Lay K)} (vias : List ViaLay) {m : Lay K} (hm : m ∈ metals) (hu : ∀ m' ∈ metals, m'.name = m.name → m' = m) (n : Nat) :
    resolve metals vias (n + 1) m.name = some (some (m.elev, m.thick)) := by
  rw [resolve]
  cases h : metals.find? fun x => m.name = x.name with
  | none =>
    rw [List.find?_eq_none] at h
    have := h m hm
    simp at this
  | some x =>
    have h1 := List.mem_of_find?_eq_some h
    have h2 := List.find?_some h
    rw [hu x h1 (by simpa using (of_decide_eq_true h2).symm)]

theorem find_none {metals : List (Lay K)} {name : String} (h : ∀ m ∈ metals, m.name ≠ name) : (metals.find? fun m => name = m.name) = none := by
  rw [List.find?_eq_none]
  intro m hm
  simpa using (h m hm).symm

omit [LinearOrder K] in
theorem viaLoop_skip {f : String → Option (Option (K × K))} {name : String} {vs : List ViaLay} (h : ∀ v ∈ vs, v.name ≠ name) :
    viaLoop f name vs = some none := by
  induction vs with
  | nil => rfl
  | cons v vs ih =>
    rw [viaLoop, if_neg (h v (by simp)).symm]
    exact ih fun x hx => h x (by simp [hx])

omit [LinearOrder K] in
theorem viaLoop_one {f : String → Option (Option (K × K))} {vs : List ViaLay} {v : ViaLay} (hv : v ∈ vs) (hu : ∀ w ∈ vs, w.name = v.name → w = v)
    {t b : K × K} (ht : f v.top = some (some t)) (hb : f v.bot = some (some b)) : viaLoop f v.name vs = some (some (t.1 - t.2, t.1 - t.2 - b.1)) := by
  induction vs with
  | nil => simp at hv
  | cons w vs ih =>
    rw [viaLoop]
    by_cases hw : v.name = w.name
    · rw [if_pos hw, hu w (by simp) hw.symm, ht]
      simp only
      rw [hb]
    · rw [if_neg hw]
      rcases List.mem_cons.1 hv with rfl | hv
      · exact absurd rfl hw
      · exact ih hv fun x hx => hu x (by simp [hx])

/-- C40: a via layer fills the space between the layers it joins: its top is the bottom of the upper one, its bottom the top of the
lower one -/
theorem c40_via {metals : List (Lay K)} {vias : List ViaLay} {v : ViaLay} (hv : v ∈ vias) (hu : ∀ w ∈ vias, w.name = v.name → w = v)
    (hm : ∀ m ∈ metals, m.name ≠ v.name) {n : Nat} {t b : K × K} (ht : resolve metals vias n v.top = some (some t))
    (hb : resolve metals vias n v.bot = some (some b)) :
    ∃ h d, resolve metals vias (n + 1) v.name = some (some (h, d)) ∧ h = t.1 - t.2 ∧ h - d = b.1 := by
  refine ⟨t.1 - t.2, t.1 - t.2 - b.1, ?_, rfl, by ring⟩
  rw [resolve, find_none hm]
  exact viaLoop_one hv hu ht hb

omit [LinearOrder K] in
theorem viaLoop_ends {f : String → Option (Option (K × K))} {name : String} {vs : List ViaLay}
    (h : ∀ v ∈ vs, v.name = name → (∃ r, f v.top = some r) ∧ ∃ r, f v.bot = some r) : ∃ r, viaLoop f name vs = some r := by
  induction vs with
  | nil => exact ⟨_, rfl⟩
  | cons v vs ih =>
    obtain ⟨r, hr⟩ := ih fun x hx => h x (by simp [hx])
    rw [viaLoop]
    by_cases hv : name = v.name
    · obtain ⟨⟨a, ha⟩, b, hb⟩ := h v (by simp) hv.symm
      rw [if_pos hv, ha]
      cases a with
      | none => exact ⟨r, hr⟩
      | some t =>
        simp only
        rw [hb]
        cases b with
        | none => exact ⟨r, hr⟩
        | some b => exact ⟨_, rfl⟩
    · rw [if_neg hv]
      exact ⟨r, hr⟩

/-- C40: looking up positions ends if the vias are not cyclic -/
theorem c40_ends {metals : List (Lay K)} {vias : List ViaLay} (rank : String → Nat)
    (hr : ∀ v ∈ vias, (∀ m ∈ metals, m.name ≠ v.name) → rank v.top < rank v.name ∧ rank v.bot < rank v.name) :
    ∀ (n : Nat) (name : String), rank name < n → ∃ r, resolve metals vias n name = some r := by
  intro n
  induction n with
  | zero => intro name h; omega
  | succ n ih =>
    intro name h
    rw [resolve]
    cases hf : metals.find? fun m => name = m.name with
    | some m => exact ⟨_, rfl⟩
    | none =>
      refine viaLoop_ends fun v hv he => ?_
      have hm : ∀ m ∈ metals, m.name ≠ v.name := by
        intro m hm
        rw [List.find?_eq_none] at hf
        have := hf m hm
        rw [he]
        intro hc
        simp [hc] at this
      obtain ⟨h1, h2⟩ := hr v hv hm
      rw [he] at h1 h2
      exact ⟨ih _ (by omega), ih _ (by omega)⟩

/-- C40 fails for cyclic vias: if for each of some names the first via of the name has its top layer among them, and none is a metal, the
lookup never ends -/
theorem c40_cycle_refuted {metals : List (Lay K)} {vias : List ViaLay} (S : String → Prop)
    (hm : ∀ m ∈ metals, ¬ S m.name) (hS : ∀ name, S name → ∃ pre v post, vias = pre ++ v :: post ∧ (∀ w ∈ pre, w.name ≠ name) ∧ v.name = name ∧ S v.top) :
    ∀ (n : Nat) (name : String), S name → resolve metals vias n name = none := by
  intro n
  induction n with
  | zero => intro name _; rfl
  | succ n ih =>
    intro name hn
    rw [resolve, find_none fun m hm' he => hm m hm' (by rw [he]; exact hn)]
    obtain ⟨pre, v, post, rfl, h1, h2, h3⟩ := hS name hn
    simp only
    have := ih v.top h3
    generalize resolve metals (pre ++ v :: post) n = f at this
    clear ih hS
    induction pre with
    | nil =>
      rw [List.nil_append, viaLoop, if_pos h2.symm, this]
    | cons w pre ihp =>
      rw [List.cons_append, viaLoop, if_neg (h1 w (by simp)).symm]
      exact ihp fun x hx => h1 x (by simp [hx])

/-- a via that is its own top layer -/
example : ∀ n, resolve ([⟨"M1", 5, 1⟩] : List (Lay ℚ)) [⟨"V", "V", "M1"⟩] n "V" = none := fun n =>
  c40_cycle_refuted (fun s => s = "V") (by simp) (by
    rintro _ rfl
    exact ⟨[], ⟨"V", "V", "M1"⟩, [], rfl, by simp, rfl, rfl⟩) n "V" rfl

/-! ## merging -/

theorem takeSame_append (tol : K) (a : Lay K) (ls : List (Lay K)) : (takeSame tol a ls).1 ++ (takeSame tol a ls).2 = ls := by
  induction ls generalizing a with
  | nil => rfl
  | cons b bs ih =>
    rw [takeSame]
    split
    · rw [List.cons_append, ih]
    · rfl

variable [IsStrictOrderedRing K]

/-- from top to bottom -/
abbrev Desc (ls : List (Lay K)) : Prop := ls.Pairwise fun a b => b.elev ≤ a.elev

theorem takeSame_gap (tol : K) (a : Lay K) (ls : List (Lay K)) (hs : Desc (a :: ls)) {b : Lay K} (hb : (takeSame tol a ls).2.head? = some b) :
    ∀ x ∈ a :: (takeSame tol a ls).1, b.elev + tol < x.elev := by
  induction ls generalizing a with
  | nil => simp [takeSame] at hb
  | cons c cs ih =>
    rw [takeSame] at hb ⊢
    have hac : c.elev ≤ a.elev := (List.pairwise_cons.1 hs).1 c (by simp)
    by_cases h : |a.elev - c.elev| ≤ tol
    · rw [if_pos h] at hb ⊢
      have := ih c (List.pairwise_cons.1 hs).2 hb
      intro x hx
      rcases List.mem_cons.1 hx with rfl | hx
      · have := this c (by simp)
        linarith
      · exact this x hx
    · rw [if_neg h] at hb ⊢
      simp only [List.head?_cons, Option.some.injEq] at hb
      subst hb
      intro x hx
      simp only [List.mem_cons, List.not_mem_nil, or_false] at hx
      subst hx
      rw [abs_of_nonneg (by linarith), not_le] at h
      linarith

theorem takeSame_len (tol : K) (a : Lay K) (ls : List (Lay K)) : (takeSame tol a ls).2.length ≤ ls.length := by
  have := congrArg List.length (takeSame_append tol a ls)
  rw [List.length_append] at this
  omega

theorem merge_spec (tol : K) : ∀ (n : Nat) (ls : List (Lay K)), ls.length ≤ n → Desc ls →
    ((merge tol n ls).flatMap fun g => g.1 :: g.2) = ls ∧
    (merge tol n ls).Pairwise (fun g g' => ∀ x ∈ g.1 :: g.2, ∀ y ∈ g'.1 :: g'.2, y.elev + tol < x.elev) ∧
    ∀ g ∈ merge tol n ls, ∀ x ∈ g.1 :: g.2, x.elev ≤ g.1.elev := by
  intro n
  induction n with
  | zero =>
    intro ls hl _
    have : ls = [] := List.eq_nil_of_length_eq_zero (by omega)
    subst this
    simp [merge]
  | succ n ih =>
    intro ls hl hs
    cases ls with
    | nil => simp [merge]
    | cons a rest =>
      have hap := takeSame_append tol a rest
      have hs2 : Desc (takeSame tol a rest).2 := by
        have := (List.pairwise_cons.1 hs).2
        rw [← hap] at this
        exact (List.pairwise_append.1 this).2.1
      obtain ⟨h1, h2, h3⟩ := ih (takeSame tol a rest).2 (by
        have := takeSame_len tol a rest
        simp only [List.length_cons] at hl
        omega) hs2
      rw [merge]
      refine ⟨?_, ?_, ?_⟩
      · rw [List.flatMap_cons, h1, List.cons_append, hap]
      · rw [List.pairwise_cons]
        refine ⟨?_, h2⟩
        intro g' hg' x hx y hy
        have hy' : y ∈ (takeSame tol a rest).2 := by
          rw [← h1, List.mem_flatMap]
          exact ⟨g', hg', hy⟩
        cases hr : (takeSame tol a rest).2 with
        | nil => rw [hr] at hy'; simp at hy'
        | cons b bs =>
          have hgap := takeSame_gap tol a rest hs (b := b) (by rw [hr]; rfl) x hx
          rw [hr] at hy' hs2
          rcases List.mem_cons.1 hy' with rfl | hy'
          · exact hgap
          · have := (List.pairwise_cons.1 hs2).1 y hy'
            linarith
      · intro g hg x hx
        rcases List.mem_cons.1 hg with rfl | hg
        · rcases List.mem_cons.1 hx with rfl | hx
          · exact le_refl _
          · refine (List.pairwise_cons.1 hs).1 x ?_
            rw [← hap]
            exact List.mem_append_left _ hx
        · exact h3 g hg x hx

/-! ## the layers -/

omit [IsStrictOrderedRing K] in
theorem layersOf_len (order : List String → List String) (gs : List (Lay K × List (Lay K))) : (layersOf order gs).length = gs.length := by
  induction gs with
  | nil => rfl
  | cons g gs ih =>
    cases gs with
    | nil => rfl
    | cons g' gs => rw [layersOf, List.length_cons, ih]; rfl

omit [IsStrictOrderedRing K] in
theorem layersOf_get (order : List String → List String) (gs : List (Lay K × List (Lay K))) : ∀ (k : Nat) (g : Lay K × List (Lay K)), gs[k]? = some g →
    ∃ s, (layersOf order gs)[k]? = some s ∧ s.elev = g.1.elev ∧ s.names = namesOf g ∧ s.name = joinNames order (namesOf g) ∧
      (∀ g', gs[k + 1]? = some g' → s.thick = g.1.elev - g'.1.elev) ∧ (gs[k + 1]? = none → s.thick = (g.2.map Lay.thick).foldl max g.1.thick) := by
  induction gs with
  | nil => intro k g h; simp at h
  | cons g0 gs ih =>
    intro k g h
    cases gs with
    | nil =>
      cases k with
      | zero =>
        simp only [List.getElem?_cons_zero, Option.some.injEq] at h
        subst h
        exact ⟨_, rfl, rfl, rfl, rfl, by simp, fun _ => rfl⟩
      | succ k => simp at h
    | cons g' gs =>
      rw [layersOf]
      cases k with
      | zero =>
        simp only [List.getElem?_cons_zero, Option.some.injEq] at h
        subst h
        refine ⟨_, rfl, rfl, rfl, rfl, ?_, by simp⟩
        intro x hx
        simp only [Nat.zero_add, List.getElem?_cons_succ, List.getElem?_cons_zero, Option.some.injEq] at hx
        rw [hx]
      | succ k => exact ih k g h

omit [IsStrictOrderedRing K] [Field K] in
theorem foldl_max (a : K) (l : List K) : (∀ x ∈ a :: l, x ≤ l.foldl max a) ∧ l.foldl max a ∈ a :: l := by
  induction l generalizing a with
  | nil => simp
  | cons b l ih =>
    obtain ⟨h1, h2⟩ := ih (max a b)
    rw [List.foldl_cons]
    constructor
    · intro x hx
      have hm := h1 (max a b) (by simp)
      simp only [List.mem_cons] at hx
      rcases hx with rfl | rfl | hx
      · exact (le_max_left _ _).trans hm
      · exact (le_max_right _ _).trans hm
      · exact h1 x (by simp [hx])
    · rcases List.mem_cons.1 h2 with h2 | h2
      · rw [h2]
        rcases max_choice a b with h | h <;> rw [h] <;> simp
      · simp [h2]

omit [LinearOrder K] [IsStrictOrderedRing K] [Field K] in
theorem collect_spec {f : String → Option (Option (K × K))} : ∀ (tech : List String) (ls : List (Lay K)), collect f tech = some ls →
    (∀ n ∈ tech, ∀ h t, f n = some (some (h, t)) → (⟨n, h, t⟩ : Lay K) ∈ ls) ∧ (∀ l ∈ ls, l.name ∈ tech ∧ f l.name = some (some (l.elev, l.thick))) ∧
    ∀ n ∈ tech, ∃ r, f n = some r := by
  intro tech
  induction tech with
  | nil =>
    intro ls h
    rw [collect, Option.some.injEq] at h
    subst h
    simp
  | cons n ns ih =>
    intro ls h
    rw [collect] at h
    cases hf : f n with
    | none => rw [hf] at h; cases h
    | some r =>
      cases r with
      | none =>
        rw [hf] at h
        obtain ⟨h1, h2, h3⟩ := ih ls h
        refine ⟨?_, fun l hl => ⟨by simp [(h2 l hl).1], (h2 l hl).2⟩, ?_⟩
        · intro m hm a b hab
          rcases List.mem_cons.1 hm with rfl | hm
          · rw [hf] at hab
            cases hab
          · exact h1 m hm a b hab
        · intro m hm
          rcases List.mem_cons.1 hm with rfl | hm
          · exact ⟨_, hf⟩
          · exact h3 m hm
      | some p =>
        rw [hf] at h
        cases hc : collect f ns with
        | none => simp [hc] at h
        | some ls' =>
          simp only [hc, Option.map_some, Option.some.injEq] at h
          subst h
          obtain ⟨h1, h2, h3⟩ := ih ls' hc
          refine ⟨?_, ?_, ?_⟩
          · intro m hm a b hab
            rcases List.mem_cons.1 hm with rfl | hm
            · rw [hf, Option.some.injEq, Option.some.injEq] at hab
              subst hab
              simp
            · exact List.mem_cons_of_mem _ (h1 m hm a b hab)
          · intro l hl
            rcases List.mem_cons.1 hl with rfl | hl
            · exact ⟨by simp, hf⟩
            · exact ⟨by simp [(h2 l hl).1], (h2 l hl).2⟩
          · intro m hm
            rcases List.mem_cons.1 hm with rfl | hm
            · exact ⟨_, hf⟩
            · exact h3 m hm

omit [Field K] [IsStrictOrderedRing K] in
theorem sorted_desc (ls : List (Lay K)) : Desc (ls.insertionSort fun a b => b.elev ≤ a.elev) := by
  have h1 : Std.Total (fun a b : Lay K => b.elev ≤ a.elev) := ⟨fun a b => le_total b.elev a.elev⟩
  have h2 : IsTrans (Lay K) (fun a b : Lay K => b.elev ≤ a.elev) := ⟨fun a b c h h' => h'.trans h⟩
  exact List.pairwise_insertionSort _ ls

/-- C40: the stackup.  Every layer ends where the one below it starts, and is thicker than the tolerance; the lowest is as thick as the
thickest layer merged in it.  Every layer of the header with a position is in one of the layers of the stackup: not above its top, and more than
the tolerance above the tops of all the layers below.  Nothing else is in the stackup, and the top of each of its layers is the top of a layer of the header in it. -/
theorem c40_stackup_partial {order : List String → List String} {tol : K} (htol : 0 ≤ tol) {metals : List (Lay K)} {vias : List ViaLay} {tech : List String} {fuel : Nat}
    {st : List (SLay K)} (hb : build order tol metals vias tech fuel = some st) :
    (∀ (k : Nat) (a b : SLay K), st[k]? = some a → st[k + 1]? = some b → a.elev - a.thick = b.elev ∧ tol < a.thick) ∧
    (∀ a, st.getLast? = some a → ∃ n ∈ a.names, ∃ h, resolve metals vias fuel n = some (some (h, a.thick))) ∧
    (∀ a, st.getLast? = some a → ∀ n ∈ a.names, ∀ h t, resolve metals vias fuel n = some (some (h, t)) → t ≤ a.thick) ∧
    (∀ n ∈ tech, ∀ h t, resolve metals vias fuel n = some (some (h, t)) → ∃ (k : Nat) (a : SLay K), st[k]? = some a ∧ n ∈ a.names ∧ h ≤ a.elev ∧
      ∀ (j : Nat) (b : SLay K), k < j → st[j]? = some b → b.elev + tol < h) ∧
    (∀ a ∈ st, (∃ n ∈ a.names, ∃ t, resolve metals vias fuel n = some (some (a.elev, t))) ∧ a.names.Nodup ∧
      ∀ n ∈ a.names, n ∈ tech ∧ ∃ h t, resolve metals vias fuel n = some (some (h, t)) ∧ h ≤ a.elev) := by
  unfold build at hb
  cases hc : collect (resolve metals vias fuel) tech with
  | none => rw [hc] at hb; cases hb
  | some ls =>
    rw [hc, Option.map_some, Option.some.injEq] at hb
    obtain ⟨c1, c2, c3⟩ := collect_spec tech ls hc
    have hperm := List.perm_insertionSort (fun a b : Lay K => b.elev ≤ a.elev) ls
    obtain ⟨m1, m2, m3⟩ := merge_spec tol ls.length (ls.insertionSort fun a b => b.elev ≤ a.elev) (by rw [hperm.length_eq]) (sorted_desc ls)
    generalize merge tol ls.length (ls.insertionSort fun a b => b.elev ≤ a.elev) = gs at *
    have hmem : ∀ l, l ∈ ls ↔ ∃ g ∈ gs, l ∈ g.1 :: g.2 := by
      intro l
      rw [← hperm.mem_iff, ← m1, List.mem_flatMap]
    have hlen := layersOf_len order gs
    rw [hb] at hlen
    have hget : ∀ (k : Nat) (a : SLay K), st[k]? = some a → ∃ g, gs[k]? = some g ∧ a.elev = g.1.elev ∧ a.names = namesOf g ∧
        (∀ g', gs[k + 1]? = some g' → a.thick = g.1.elev - g'.1.elev) ∧ (gs[k + 1]? = none → a.thick = (g.2.map Lay.thick).foldl max g.1.thick) := by
      intro k a ha
      have hk := (List.getElem?_eq_some_iff.1 ha).1
      have hg : gs[k]? = some gs[k] := List.getElem?_eq_getElem (by omega)
      obtain ⟨s, s1, s2, s3, _, s5, s6⟩ := layersOf_get order gs k _ hg
      rw [hb, ha, Option.some.injEq] at s1
      subst s1
      exact ⟨_, hg, s2, s3, s5, s6⟩
    have hname : ∀ (g : Lay K × List (Lay K)) (n : String), n ∈ namesOf g ↔ ∃ l ∈ g.1 :: g.2, l.name = n := by
      intro g n
      unfold namesOf
      rw [List.mem_dedup, List.mem_map]
    have hlater : ∀ (i j : Nat) (g g' : Lay K × List (Lay K)), i < j → gs[i]? = some g → gs[j]? = some g' → ∀ x ∈ g.1 :: g.2, ∀ y ∈ g'.1 :: g'.2, y.elev + tol < x.elev := by
      intro i j g g' hij h1 h2
      obtain ⟨p1, rfl⟩ := List.getElem?_eq_some_iff.1 h1
      obtain ⟨p2, rfl⟩ := List.getElem?_eq_some_iff.1 h2
      exact List.pairwise_iff_getElem.1 m2 i j p1 p2 hij
    have hlast : ∀ a, st.getLast? = some a → ∃ g ∈ gs, a.names = namesOf g ∧ a.thick = (g.2.map Lay.thick).foldl max g.1.thick := by
      intro a ha
      rw [List.getLast?_eq_getElem?] at ha
      have hk := (List.getElem?_eq_some_iff.1 ha).1
      obtain ⟨g, g1, _, g3, _, g5⟩ := hget _ a ha
      exact ⟨g, List.mem_of_getElem? g1, g3, g5 (by rw [List.getElem?_eq_none_iff]; omega)⟩
    refine ⟨?_, ?_, ?_, ?_, ?_⟩
    · intro k a b ha hb'
      obtain ⟨g, g1, g2, _, g4, _⟩ := hget k a ha
      obtain ⟨g', g1', g2', _⟩ := hget (k + 1) b hb'
      have h := hlater k (k + 1) g g' (by omega) g1 g1' g.1 (by simp) g'.1 (by simp)
      rw [g4 g' g1', g2, g2']
      exact ⟨by ring, by linarith⟩
    · intro a ha
      obtain ⟨g, g1, g2, g3⟩ := hlast a ha
      have := (foldl_max g.1.thick (g.2.map Lay.thick)).2
      rw [← g3] at this
      have : ∃ l ∈ g.1 :: g.2, l.thick = a.thick := by
        have h := this
        rw [← List.map_cons (f := Lay.thick), List.mem_map] at h
        exact h
      obtain ⟨l, l1, l2⟩ := this
      have hl := c2 l ((hmem l).2 ⟨g, g1, l1⟩)
      refine ⟨l.name, ?_, l.elev, ?_⟩
      · rw [g2, hname]
        exact ⟨l, l1, rfl⟩
      · rw [← l2]
        exact hl.2
    · intro a ha n hn h t hr
      obtain ⟨g, g1, g2, g3⟩ := hlast a ha
      rw [g2, hname] at hn
      obtain ⟨l, l1, rfl⟩ := hn
      have hl := c2 l ((hmem l).2 ⟨g, g1, l1⟩)
      rw [hl.2, Option.some.injEq, Option.some.injEq, Prod.mk.injEq] at hr
      rw [g3, ← hr.2]
      refine (foldl_max g.1.thick (g.2.map Lay.thick)).1 _ ?_
      rw [← List.map_cons (f := Lay.thick), List.mem_map]
      exact ⟨l, l1, rfl⟩
    · intro n hn h t hr
      obtain ⟨g, g1, g2⟩ := (hmem _).1 (c1 n hn h t hr)
      obtain ⟨k, hk⟩ := List.getElem?_of_mem g1
      obtain ⟨s, s1, s2, s3, _⟩ := layersOf_get order gs k g hk
      rw [hb] at s1
      refine ⟨k, s, s1, ?_, ?_, ?_⟩
      · rw [s3, hname]
        exact ⟨_, g2, rfl⟩
      · rw [s2]
        exact m3 g g1 _ g2
      · intro j b hj hb'
        obtain ⟨g', g1', g2', _⟩ := hget j b hb'
        rw [g2']
        exact hlater k j g g' hj hk g1' _ g2 g'.1 (by simp)
    · intro a ha
      obtain ⟨k, hk⟩ := List.getElem?_of_mem ha
      obtain ⟨g, g1, g2, g3, _⟩ := hget k a hk
      have hg := List.mem_of_getElem? g1
      refine ⟨⟨g.1.name, ?_, g.1.thick, ?_⟩, ?_, ?_⟩
      · rw [g3, hname]
        exact ⟨g.1, by simp, rfl⟩
      · rw [g2]
        exact (c2 g.1 ((hmem _).2 ⟨g, hg, by simp⟩)).2
      · rw [g3]
        exact List.nodup_dedup _
      · intro n hn
        rw [g3, hname] at hn
        obtain ⟨l, l1, rfl⟩ := hn
        have hl := c2 l ((hmem l).2 ⟨g, hg, l1⟩)
        refine ⟨hl.1, l.elev, l.thick, hl.2, ?_⟩
        rw [g2]
        exact m3 g hg l l1

/-- C40: the stackup is built if the vias are not cyclic -/
theorem c40_builds (order : List String → List String) (tol : K) {metals : List (Lay K)} {vias : List ViaLay} (tech : List String) (rank : String → Nat)
    (hr : ∀ v ∈ vias, (∀ m ∈ metals, m.name ≠ v.name) → rank v.top < rank v.name ∧ rank v.bot < rank v.name) {fuel : Nat} (hf : ∀ n ∈ tech, rank n < fuel) :
    ∃ st, build order tol metals vias tech fuel = some st := by
  have : ∃ ls, collect (resolve metals vias fuel) tech = some ls := by
    induction tech with
    | nil => exact ⟨_, rfl⟩
    | cons n ns ih =>
      obtain ⟨ls, hl⟩ := ih fun x hx => hf x (by simp [hx])
      obtain ⟨r, h⟩ := c40_ends rank hr fuel n (hf n (by simp))
      rw [collect, h]
      cases r with
      | none => exact ⟨ls, hl⟩
      | some p => exact ⟨⟨n, p.1, p.2⟩ :: ls, by simp [hl]⟩
  obtain ⟨ls, hl⟩ := this
  exact ⟨_, by rw [build, hl, Option.map_some]⟩

/-- C40: layers whose tops are within the tolerance of each other are merged -/
theorem c40_merged {order : List String → List String} {tol : K} (htol : 0 ≤ tol) {metals : List (Lay K)} {vias : List ViaLay} {tech : List String} {fuel : Nat}
    {st : List (SLay K)} (hb : build order tol metals vias tech fuel = some st) {m n : String} (hm : m ∈ tech) (hn : n ∈ tech) {h h' t t' : K}
    (h1 : resolve metals vias fuel m = some (some (h, t))) (h2 : resolve metals vias fuel n = some (some (h', t'))) (hd : |h - h'| ≤ tol) :
    ∃ a ∈ st, m ∈ a.names ∧ n ∈ a.names := by
  obtain ⟨_, _, _, h4, _⟩ := c40_stackup_partial htol hb
  obtain ⟨k, a, k1, k2, k3, k4⟩ := h4 m hm h t h1
  obtain ⟨j, b, j1, j2, j3, j4⟩ := h4 n hn h' t' h2
  rw [abs_le] at hd
  rcases Nat.lt_trichotomy k j with hlt | rfl | hlt
  · have := k4 j b hlt j1
    linarith
  · rw [k1, Option.some.injEq] at j1
    subst j1
    exact ⟨a, List.mem_of_getElem? k1, k2, j2⟩
  · have := j4 k a hlt k1
    linarith

/-- C40: the lowest layer with a metal is found -/
theorem c40_last {metals : List (Lay K)} {st : List (SLay K)} {pre post : List (SLay K)} {s : SLay K} (hst : st = pre ++ s :: post)
    (hs : ∃ n ∈ s.names, ∃ m ∈ metals, m.name = n) (hp : ∀ x ∈ post, ∀ n ∈ x.names, ∀ m ∈ metals, m.name ≠ n) : lastMetal metals st = s.name := by
  have hfind : (st.reverse.find? fun s => s.names.any fun n => metals.any fun m => m.name = n) = some s := by
    rw [hst, List.reverse_append, List.reverse_cons, List.append_assoc, List.find?_append]
    have h1 : (post.reverse.find? fun s => s.names.any fun n => metals.any fun m => decide (m.name = n)) = none := by
      rw [List.find?_eq_none]
      intro x hx hc
      rw [List.mem_reverse] at hx
      rw [List.any_eq_true] at hc
      obtain ⟨n, hn, hc⟩ := hc
      rw [List.any_eq_true] at hc
      obtain ⟨m, hm, hc⟩ := hc
      exact hp x hx n hn m hm (of_decide_eq_true hc)
    rw [h1, Option.none_or, List.singleton_append, List.find?_cons_of_pos]
    obtain ⟨n, hn, m, hm, he⟩ := hs
    exact List.any_eq_true.2 ⟨n, hn, List.any_eq_true.2 ⟨m, hm, by simpa using he⟩⟩
  unfold lastMetal
  rw [hfind]

/-! Three metals, two of them at the same height, and a via -/

def exMetals : List (Lay ℚ) := [⟨"M1", 2, 1⟩, ⟨"M2", 5, 1⟩, ⟨"M2b", 5, 1 / 2⟩]
def exVias : List ViaLay := [⟨"V1", "M2", "M1"⟩]

example : build id (1 / 1000000) exMetals exVias ["M1", "V1", "M2", "M2b", "X"] 3 =
    some [⟨"M2_M2b", 5, 1, ["M2", "M2b"]⟩, ⟨"V1", 4, 2, ["V1"]⟩, ⟨"M1", 2, 1, ["M1"]⟩] := by decide +kernel

example : resolve exMetals exVias 2 "V1" = some (some (4, 2)) := by decide +kernel

end Ecad.Ctm
