import Verif.Xfl.ConnProps
import Verif.Shape.PadInst
import Verif.Layer.MapLemmas
/-!
Padstack instances of imported XFL files (C88).
-/
namespace Ecad.Xfl
open Shp (Aff Shape Box)

variable {K : Type} [Field K] [LinearOrder K] (E : Env K)

/-! ### names -/

theorem instNameLoop_eq (used : List String) (d : String) (fuel i : Nat) :
    instNameLoop used d fuel i = Naming.nextKeyLoop (fun k => used.contains k) (d ++ "_inst_") fuel i := by
  induction fuel generalizing i with
  | zero => rfl
  | succ n ih => simp only [instNameLoop, Naming.nextKeyLoop, ih]

/-- the loop ends, with the first number that is free -/
theorem nextInstName_spec (used : List String) (d : String) :
    ∃ n : Nat, 1 ≤ n ∧ nextInstName used d = d ++ "_inst_" ++ toString n ∧ nextInstName used d ∉ used ∧
      ∀ m, 1 ≤ m → m < n → d ++ "_inst_" ++ toString m ∈ used := by
  unfold nextInstName
  rw [instNameLoop_eq]
  cases hl : Naming.nextKeyLoop (fun k => used.contains k) (d ++ "_inst_") (used.length + 1) 1 with
  | some r =>
    obtain ⟨n, h1, h2, h3, h4⟩ := Naming.loop_some hl
    exact ⟨n, h1, h2, by simpa using h3, fun m hm hmn => by simpa using h4 m hm hmn⟩
  | none =>
    exfalso
    have h := Naming.loop_none hl
    have hsub : (Finset.range (used.length + 1)).image (fun i => d ++ "_inst_" ++ toString (i + 1)) ⊆ used.toFinset := by
      intro s hs
      simp only [Finset.mem_image, Finset.mem_range] at hs
      obtain ⟨i, hi, rfl⟩ := hs
      have := h (i + 1) (by omega) (by omega)
      simpa using this
    have h1 := Finset.card_le_card hsub
    rw [Finset.card_image_of_injective _ (fun a b hab => by
      have := Naming.cand_inj (d ++ "_inst_") hab
      omega), Finset.card_range] at h1
    have := List.toFinset_card_le used
    omega

/-! ### specification -/

/-- a padstack instance without its name -/
structure IData (K : Type) where
  defName : String
  net : Int
  top : Int
  bot : Int
  m : Aff K

/-- the instance a via asks for: its definition, the net of the route, the layers its numbers mean and its
place; none if a layer, the definition or its layer map does not exist -/
def Env.asked (net : Int) : Obj K → Option (IData K)
  | .via s e name loc rot mirror =>
    match UMap.find? E.metal s, UMap.find? E.metal e with
    | some s, some e =>
      if E.hasMap name && E.hasDef name then
        some ⟨name, net, s, e, mat E.R rot (mkPt E.G.scale loc) (if mirror = 'Y' ∨ mirror = '1' then .y else .no)⟩
      else none
    | _, _ => none
  | _ => none

def instName : Out K → Option String
  | .inst n _ _ _ _ _ => some n
  | _ => none

def instData : Out K → Option (IData K)
  | .inst _ d n t b m => some ⟨d, n, t, b, m⟩
  | _ => none

/-- the names agree with the data: definition, "_inst_" and a number from 1 on -/
def NameOk : Out K → Prop
  | .inst n d _ _ _ _ => ∃ i : Nat, 1 ≤ i ∧ n = d ++ "_inst_" ++ toString i
  | _ => True

/-! ### the loop -/

/-- what one run adds: names not in use, all different -/
def Good (used : List String) (y : List String × List (Out K)) : Prop :=
  (∀ o ∈ y.2, NameOk o) ∧ (y.2.filterMap instName).Nodup ∧ (∀ n ∈ y.2.filterMap instName, n ∉ used) ∧
    ∀ n, n ∈ y.1 ↔ n ∈ used ∨ n ∈ y.2.filterMap instName

omit [Field K] [LinearOrder K] in
theorem good_append (used u1 u2 : List String) (o1 o2 : List (Out K)) (h1 : Good used (u1, o1)) (h2 : Good u1 (u2, o2)) :
    Good used (u2, o1 ++ o2) := by
  obtain ⟨a1, b1, c1, d1⟩ := h1
  obtain ⟨a2, b2, c2, d2⟩ := h2
  simp only at a1 b1 c1 d1 a2 b2 c2 d2
  refine ⟨?_, ?_, ?_, ?_⟩
  · intro o ho
    rcases List.mem_append.1 ho with h | h
    · exact a1 o h
    · exact a2 o h
  · simp only [List.filterMap_append]
    refine List.nodup_append.2 ⟨b1, b2, ?_⟩
    rintro x hx y hy rfl
    exact c2 x hy ((d1 x).2 (.inr hx))
  · intro n hn
    simp only [List.filterMap_append, List.mem_append] at hn
    rcases hn with h | h
    · exact c1 n h
    · exact fun hu => c2 n h ((d1 n).2 (.inl hu))
  · intro n
    simp only [List.filterMap_append, List.mem_append]
    rw [d2, d1, or_assoc]

/-- one object: what `step` gives for the instances -/
theorem step_inst (net : Int) (used : List String) (o : Obj K) (r : List (Obj K)) (x : List String × List (Out K) × List (Obj K))
    (h : E.step net used o r = .ok x) :
    Good used (x.1, x.2.1) ∧ x.2.1.filterMap instData ++ x.2.2.filterMap (E.asked net) = (o :: r).filterMap (E.asked net) := by
  have nil : Good used (used, ([] : List (Out K))) := ⟨by simp, by simp, by simp, by simp⟩
  have geo : ∀ (l n : Int) (s : Shape K), Good used (used, [.geom l n s]) := by
    intro l n s
    refine ⟨by simp [NameOk], ?_, ?_, ?_⟩ <;> simp [List.filterMap_cons, instName]
  by_cases ho : o.isShape = true
  · have ha : E.asked net o = none := by cases o <;> first | rfl | simp [Obj.isShape] at ho
    have hav : ∀ (l : Int) (r : List (Obj K)), (r.dropWhile (E.voidOn l)).filterMap (E.asked net) = r.filterMap (E.asked net) := by
      intro l r
      induction r with
      | nil => rfl
      | cons b r ih =>
        rw [List.dropWhile_cons]
        split
        · next hb =>
          have hh : b.isShape = true := isShape_of_isHole b (by simp only [Env.voidOn, Bool.and_eq_true] at hb; exact hb.1.1)
          have : E.asked net b = none := by cases b <;> first | rfl | simp [Obj.isShape] at hh
          rw [ih, List.filterMap_cons, this]
        · rfl
    rw [List.filterMap_cons, ha]
    rw [step_shape E net used o r ho] at h
    by_cases hh : o.isHole = true
    · rw [if_pos hh] at h
      simp only [Res.ok.injEq] at h; subst h
      exact ⟨nil, rfl⟩
    · rw [if_neg hh] at h
      cases hm : E.mkShape o with
      | ub => rw [hm] at h; simp at h
      | exn => rw [hm] at h; simp at h
      | ok y =>
        rw [hm, Res.bind_ok] at h
        cases hmet : UMap.find? E.metal y.1 with
        | none =>
          simp only [hmet, Res.ok.injEq] at h; subst h
          exact ⟨nil, rfl⟩
        | some l =>
          simp only [hmet] at h
          cases hy : y.2 with
          | none =>
            simp only [hy, Res.ok.injEq] at h; subst h
            exact ⟨nil, rfl⟩
          | some s =>
            simp only [hy] at h
            cases hho : E.holes y.1 r with
            | ub => rw [hho] at h; simp at h
            | exn => rw [hho] at h; simp at h
            | ok z =>
              rw [hho, Res.bind_ok] at h
              obtain ⟨_, h2, _⟩ := holes_spec E y.1 r z hho
              have h3 := hav y.1 r
              rw [← h2] at h3
              split at h <;> split at h <;> simp only [Res.ok.injEq] at h <;> subst h
              · exact ⟨nil, by simpa using h3⟩
              · exact ⟨geo _ _ _, h3⟩
              · exact ⟨nil, by simpa using h3⟩
              · exact ⟨geo _ _ _, h3⟩
  · cases o with
    | path l w p =>
      have ha : E.asked net (.path l w p) = none := rfl
      rw [List.filterMap_cons, ha]
      simp only [Env.step] at h
      cases hm : UMap.find? E.metal l with
      | none => simp only [hm, Res.ok.injEq] at h; subst h; exact ⟨nil, rfl⟩
      | some l' =>
        simp only [hm] at h
        cases hc : E.G.composite p with
        | ub => simp [hc] at h
        | exn => simp [hc] at h
        | ok ps =>
          simp only [hc, Res.bind_ok] at h
          split at h <;> simp only [Res.ok.injEq] at h <;> subst h
          · exact ⟨nil, rfl⟩
          · exact ⟨geo _ _ _, rfl⟩
    | via s e n loc rot mir =>
      simp only [Env.step] at h
      rw [List.filterMap_cons]
      cases hs : UMap.find? E.metal s with
      | none => simp only [hs, Res.ok.injEq] at h; subst h; exact ⟨nil, by simp [Env.asked, hs]⟩
      | some s' =>
        cases he : UMap.find? E.metal e with
        | none => simp only [hs, he, Res.ok.injEq] at h; subst h; exact ⟨nil, by simp [Env.asked, hs, he]⟩
        | some e' =>
          simp only [hs, he] at h
          by_cases h1 : E.hasMap n = true
          · by_cases h2 : E.hasDef n = true
            · simp only [h1, h2, Bool.true_eq_false, if_false, Res.ok.injEq] at h
              subst h
              obtain ⟨i, i1, i2, i3, _⟩ := nextInstName_spec used n
              refine ⟨⟨?_, ?_, ?_, ?_⟩, ?_⟩
              · intro o ho
                simp only [List.mem_singleton] at ho
                subst ho
                exact ⟨i, i1, i2⟩
              · simp [instName]
              · intro m hm
                simp only [List.filterMap_cons, instName, List.filterMap_nil, List.mem_singleton] at hm
                subst hm; exact i3
              · intro m
                simp only [List.filterMap_cons, instName, List.filterMap_nil, List.mem_cons, List.not_mem_nil, or_false]
                exact or_comm
              · simp [Env.asked, hs, he, h1, h2, instData]
            · simp only [h1, h2, Bool.true_eq_false, if_false, if_true, Bool.not_eq_true] at h
              simp only [Bool.not_eq_true] at h2
              simp only [h2, if_true, Res.ok.injEq] at h; subst h
              exact ⟨nil, by simp [Env.asked, hs, he, h2]⟩
          · simp only [Bool.not_eq_true] at h1
            simp only [h1, if_true, Res.ok.injEq] at h; subst h
            exact ⟨nil, by simp [Env.asked, hs, he, h1]⟩
    | bondwire =>
      simp only [Env.step, Res.ok.injEq] at h; subst h; exact ⟨nil, rfl⟩
    | annular l outer inner loc =>
      have ha : E.asked net (.annular l outer inner loc) = none := rfl
      rw [List.filterMap_cons, ha]
      simp only [Env.step] at h
      cases hm : UMap.find? E.metal l with
      | none => simp only [hm, Res.ok.injEq] at h; subst h; exact ⟨nil, rfl⟩
      | some l' =>
        simp only [hm] at h
        cases hg : E.G.get (.annular outer inner) with
        | ub => simp [Getter.get] at hg
        | exn => simp [Getter.get] at hg
        | ok s =>
          simp only [hg, Res.bind_ok] at h
          split at h <;> simp only [Res.ok.injEq] at h <;> subst h
          · exact ⟨nil, rfl⟩
          · exact ⟨geo _ _ _, rfl⟩
    | _ => exact absurd rfl ho

theorem route_inst (net : Int) (n : Nat) (objs : List (Obj K)) (used : List String) (y : List String × List (Out K)) (hl : objs.length ≤ n)
    (h : E.route net n used objs = .ok y) :
    Good used y ∧ y.2.filterMap instData = objs.filterMap (E.asked net) := by
  have nil : ∀ used : List String, Good used (used, ([] : List (Out K))) := fun _ => ⟨by simp, by simp, by simp, by simp⟩
  induction n generalizing objs used y with
  | zero =>
    have : objs = [] := List.length_eq_zero_iff.1 (by omega)
    subst this
    simp only [Env.route, Res.ok.injEq] at h; subst h; exact ⟨nil _, rfl⟩
  | succ n ih =>
    cases objs with
    | nil => simp only [Env.route, Res.ok.injEq] at h; subst h; exact ⟨nil _, rfl⟩
    | cons o r =>
      simp only [Env.route] at h
      cases hs : E.step net used o r with
      | ub => rw [hs] at h; simp at h
      | exn => rw [hs] at h; simp at h
      | ok x =>
        rw [hs, Res.bind_ok] at h
        obtain ⟨h1, h2⟩ := step_inst E net used o r x hs
        have hlen := (step_spec E net used o r x hs).1
        cases hr : E.route net n x.1 x.2.2 with
        | ub => rw [hr] at h; simp at h
        | exn => rw [hr] at h; simp at h
        | ok z =>
          rw [hr, Res.bind_ok] at h
          simp only [Res.ok.injEq] at h; subst h
          obtain ⟨h3, h4⟩ := ih x.2.2 x.1 z (by simp at hl; omega) hr
          refine ⟨good_append _ _ _ _ _ h1 h3, ?_⟩
          simp only [List.filterMap_append]
          rw [h4, h2]

/-- C88: over a whole import the instances are, in the order of the file, exactly those its vias ask for; their
names are all different and consist of the name of the definition, "_inst_" and a number from 1 on. -/
theorem c88_instances (netId : String → Option Int) (rs : List (String × List (Obj K))) (y : List String × List (Out K))
    (h : E.routes netId [] rs = .ok y) :
    y.2.filterMap instData = (rs.flatMap fun r => match netId r.1 with
      | none => []
      | some i => r.2.filterMap (E.asked i)) ∧
    (y.2.filterMap instName).Nodup ∧ ∀ o ∈ y.2, NameOk o := by
  have nil : ∀ used : List String, Good used (used, ([] : List (Out K))) := fun _ => ⟨by simp, by simp, by simp, by simp⟩
  have main : ∀ (rs : List (String × List (Obj K))) (used : List String) (y : List String × List (Out K)), E.routes netId used rs = .ok y →
      Good used y ∧ y.2.filterMap instData = (rs.flatMap fun r => match netId r.1 with
        | none => []
        | some i => r.2.filterMap (E.asked i)) := by
    intro rs
    induction rs with
    | nil => intro used y h; simp only [Env.routes, Res.ok.injEq] at h; subst h; exact ⟨nil _, rfl⟩
    | cons r rs ih =>
      intro used y h
      obtain ⟨n, objs⟩ := r
      simp only [Env.routes] at h
      cases hn : netId n with
      | none =>
        simp only [hn] at h
        simp only [List.flatMap_cons, hn, List.nil_append]
        exact ih used y h
      | some i =>
        simp only [hn] at h
        cases hr : E.route i objs.length used objs with
        | ub => rw [hr] at h; simp at h
        | exn => rw [hr] at h; simp at h
        | ok x =>
          rw [hr, Res.bind_ok] at h
          cases hs : E.routes netId x.1 rs with
          | ub => rw [hs] at h; simp at h
          | exn => rw [hs] at h; simp at h
          | ok z =>
            rw [hs, Res.bind_ok] at h
            simp only [Res.ok.injEq] at h; subst h
            obtain ⟨h1, h2⟩ := route_inst E i _ objs used x le_rfl hr
            obtain ⟨h3, h4⟩ := ih x.1 z hs
            refine ⟨good_append _ _ _ _ _ h1 h3, ?_⟩
            simp only [List.flatMap_cons, hn, List.filterMap_append]
            rw [h2, h4]
  obtain ⟨⟨h1, h2, _, _⟩, h5⟩ := main rs [] y h
  exact ⟨h5, h2, h1⟩

/-- C88: the place of an instance: turned, then mirrored about the y axis if asked for, then shifted. -/
theorem c88_place (R : Int → K × K) (hR : R 0 = (1, 0)) (rot : Int) (off p : K × K) :
    (mat R rot off .no).act p = ((R rot).1 * p.1 - (R rot).2 * p.2 + off.1, (R rot).2 * p.1 + (R rot).1 * p.2 + off.2) ∧
    (mat R rot off .y).act p = (-((R rot).1 * p.1 - (R rot).2 * p.2) + off.1, (R rot).2 * p.1 + (R rot).1 * p.2 + off.2) ∧
    (mat R rot off .x).act p = ((R rot).1 * p.1 - (R rot).2 * p.2 + off.1, -((R rot).2 * p.1 + (R rot).1 * p.2) + off.2) := by
  unfold mat
  by_cases h : rot = 0
  · subst h
    simp [Aff.comp, Aff.one, Aff.act, hR]
  · simp only [if_neg h, Aff.comp, Aff.act, Aff.one]
    refine ⟨?_, ?_, ?_⟩ <;> ext <;> simp <;> ring

/-- two vias of a definition, the third one has a layer that does not exist -/
example : (exEnv.route 5 exObjs.length [] exObjs).bind (fun y => .ok (y.2.filterMap instName)) = .ok ["V_inst_1", "V_inst_2"] := by
  decide +kernel

end Ecad.Xfl
