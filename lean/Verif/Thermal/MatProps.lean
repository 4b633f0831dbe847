import Verif.Thermal.MatModel
import Verif.Design.DatabaseProps
import Verif.Basic.SmallProps
import Mathlib.Algebra.BigOperators.Group.Finset.Basic
import Mathlib.Algebra.BigOperators.Fin
import Mathlib.Tactic.IntervalCases
/-!
C142: the networks of prism models use the material properties that were given to the materials.
-/
namespace Ecad.Mat
open Ecad.Material Ecad.Db

/-! ## specification -/

section
variable {K : Type}

/-- whether a call makes the material `n` -/
def makes (n : String) : MOp K → Bool
  | .mat n' => n' == n
  | _ => false

/-- the property a call gives to a material -/
def gives (n : String) (id : Int) : MOp K → Option (MProp K)
  | .prop n' id' p => if n' = n ∧ id' = id then some p else none
  | _ => none

/-- the kind a call gives to a material -/
def kinds (n : String) : MOp K → Option Bool
  | .type n' b => if n' = n then some b else none
  | _ => none

/-- the calls since a material was made -/
def since (n : String) (ops : List (MOp K)) : List (MOp K) := ops.dropWhile fun o => !makes n o

/-- the property of a kind that was the first to be given to a material -/
def first (ops : List (MOp K)) (n : String) (id : Int) : Option (MProp K) := (since n ops).findSome? (gives n id)

/-- whether a material was last called a fluid -/
def fluidLast (ops : List (MOp K)) (n : String) : Bool := ((since n ops).reverse.findSome? (kinds n)).getD false

/-- the value of a polynomial with these coefficients -/
def evalAt [Field K] (cs : List K) (t : K) : K := ∑ i ∈ Finset.range cs.length, cs.getD i 0 * t ^ i

/-- What a property says along an axis: one value for all axes, one value for each, the diagonal of a tensor. -/
def along [Field K] (p : MProp K) (t : K) (i : Nat) : Option K :=
  match p with
  | .one a => some a
  | .three a b c => [a, b, c][i]?
  | .nine e => some (e i i)
  | .table => none
  | .poly [c] => some (evalAt c t)
  | .poly [c0, c1, c2] => ([c0, c1, c2][i]?).map fun c => evalAt c t
  | .poly cs => (cs[4 * i]?).map fun c => evalAt c t

/-- properties of one or three values or polynomials -/
inductive Plain : MProp K → Prop where
  | one (a : K) : Plain (.one a)
  | three (a b c : K) : Plain (.three a b c)
  | poly1 (c : List K) (h : c ≠ []) : Plain (.poly [c])
  | poly3 (c0 c1 c2 : List K) (h0 : c0 ≠ []) (h1 : c1 ≠ []) (h2 : c2 ≠ []) : Plain (.poly [c0, c1, c2])

/-- What a property says as a single number: its only value or polynomial. -/
inductive Single [Field K] : MProp K → (K → K) → Prop where
  | one (a : K) : Single (.one a) fun _ => a
  | poly (c : List K) (h : c ≠ []) : Single (.poly [c]) (evalAt c)

/-! ## histories -/

theorem since_append (n : String) (ops : List (MOp K)) (op : MOp K) :
    since n (ops ++ [op]) = if ∃ o ∈ ops, makes n o then since n ops ++ [op] else since n [op] := by
  unfold since
  induction ops with
  | nil => simp
  | cons o ops ih =>
    rw [List.cons_append, List.dropWhile_cons, List.dropWhile_cons]
    by_cases h : makes n o = true
    · simp [h]
    · simp only [h, Bool.not_false, if_true, ih, List.mem_cons, exists_eq_or_imp]
      simp [h]

/-- What holds after a history of calls. -/
structure LInv (ops : List (MOp K)) (l : Lib K) : Prop where
  good : Good l.db
  mat : MatOk l.db 0
  named : ∀ n, (∃ x, findByName l.db .materialDef n = some x) ↔ ∃ o ∈ ops, makes n o = true
  bound : ∀ n x, findByName l.db .materialDef n = some x → x.obj < l.next
  inj : ∀ n n' x x', findByName l.db .materialDef n = some x → findByName l.db .materialDef n' = some x' → x.obj = x'.obj → n = n'
  props : ∀ n x, findByName l.db .materialDef n = some x → ∃ m, UMap.find? l.props x.obj = some m ∧ ∀ id, getProperty m id = first ops n id
  types : ∀ n x, findByName l.db .materialDef n = some x → UMap.find? l.types x.obj = some (fluidLast ops n)
  propB : ∀ e ∈ l.props, e.1 < l.next
  typeB : ∀ e ∈ l.types, e.1 < l.next

theorem linv_empty : LInv ([] : List (MOp K)) Lib.empty := by
  refine ⟨good_new 0, matOk_new 0, fun n => ?_, ?_, ?_, ?_, ?_, ?_, ?_⟩
  · rw [show (Lib.empty : Lib K).db = new 0 from rfl, find_new]; simp
  · intro n x h; rw [show (Lib.empty : Lib K).db = new 0 from rfl, find_new] at h; cases h
  · intro n n' x x' h; rw [show (Lib.empty : Lib K).db = new 0 from rfl, find_new] at h; cases h
  · intro n x h; rw [show (Lib.empty : Lib K).db = new 0 from rfl, find_new] at h; cases h
  · intro n x h; rw [show (Lib.empty : Lib K).db = new 0 from rfl, find_new] at h; cases h
  · intro e he; cases he
  · intro e he; cases he

theorem find_updObj {V : Type} (l : List (Nat × V)) (o : Nat) (f : V → V) (k : Nat) :
    UMap.find? (updObj l o f) k = if k = o then (UMap.find? l k).map f else UMap.find? l k := by
  induction l with
  | nil => simp [updObj, UMap.find?_nil]
  | cons e l ih =>
    have : updObj (e :: l) o f = (if e.1 = o then (e.1, f e.2) else e) :: updObj l o f := rfl
    rw [this, UMap.find?_cons, UMap.find?_cons, ih]
    by_cases h1 : e.1 = o
    · by_cases h2 : e.1 = k
      · subst h1; subst h2; simp
      · simp [h1]
        by_cases h3 : k = o
        · exact absurd (h1.trans h3.symm) h2
        · simp [h3, show ¬ o = k from fun h => h3 h.symm]
    · by_cases h2 : e.1 = k
      · simp [h1, h2, show ¬ k = o from fun h => h1 (h2.trans h)]
      · simp [h1, h2]

theorem mem_updObj {V : Type} {l : List (Nat × V)} {o : Nat} {f : V → V} {b : Nat} (h : ∀ e ∈ l, e.1 < b) : ∀ e ∈ updObj l o f, e.1 < b := by
  intro e he
  obtain ⟨e', he', rfl⟩ := List.mem_map.1 he
  have := h e' he'
  split <;> exact this

theorem not_makes {n n' : String} {id : Int} {p : MProp K} {b : Bool} : makes n' (.prop n id p) = false ∧ makes n' (.type n b : MOp K) = false :=
  ⟨rfl, rfl⟩

theorem find_absent {V : Type} {l : List (Nat × V)} {b : Nat} (h : ∀ e ∈ l, e.1 < b) : UMap.find? l b = none := by
  rw [UMap.find?_eq_none_iff]
  intro hm
  obtain ⟨e, he, hb⟩ := List.mem_map.1 hm
  have := h e he
  omega

theorem linv_step {ops : List (MOp K)} {l : Lib K} (h : LInv ops l) (op : MOp K) : ∃ l', l.step op = .ok l' ∧ LInv (ops ++ [op]) l' := by
  have hmade : ∀ n x, findByName l.db .materialDef n = some x → ∃ o ∈ ops, makes n o = true := fun n x hx => (h.named n).1 ⟨x, hx⟩
  cases op with
  | mat n =>
    obtain ⟨d', r, he, hg, -, h1, h2, h3⟩ := c91_create h.good .materialDef n l.next
    have hm := matOk_create h.good h.mat .materialDef n l.next he
    unfold Lib.step
    simp only [he, Res.bind_ok]
    cases r with
    | none =>
      have hd := h2 rfl
      subst hd
      obtain ⟨y, hy⟩ := h1.1 rfl
      have hfirst : ∀ n' id, (∃ o ∈ ops, makes n' o = true) → first (ops ++ [MOp.mat n]) n' id = first ops n' id := by
        intro n' id hc
        unfold first
        rw [since_append, if_pos hc, List.findSome?_append]
        simp [gives]
      have hfluid : ∀ n', (∃ o ∈ ops, makes n' o = true) → fluidLast (ops ++ [MOp.mat n]) n' = fluidLast ops n' := by
        intro n' hc
        unfold fluidLast
        rw [since_append, if_pos hc, List.reverse_append]
        rfl
      refine ⟨_, rfl, hg, hm, fun n' => ?_, h.bound, h.inj, ?_, ?_, h.propB, h.typeB⟩
      · rw [h.named n']
        constructor
        · rintro ⟨o, ho, hh⟩; exact ⟨o, by simp [ho], hh⟩
        · rintro ⟨o, ho, hh⟩
          rcases List.mem_append.1 ho with ho | ho
          · exact ⟨o, ho, hh⟩
          · rw [List.mem_singleton] at ho
            subst ho
            simp only [makes, beq_iff_eq] at hh
            subst hh
            exact hmade _ y hy
      · intro n' x hx
        obtain ⟨m, hm1, hm2⟩ := h.props n' x hx
        exact ⟨m, hm1, fun id => by rw [hm2, hfirst n' id (hmade _ _ hx)]⟩
      · intro n' x hx
        show UMap.find? l.types x.obj = _
        rw [h.types n' x hx, hfluid n' (hmade _ _ hx)]
    | some z =>
      obtain ⟨e1, e2, e3, e4, e5⟩ := h3 z rfl
      have hnone : findByName l.db .materialDef n = none := by
        cases hf : findByName l.db .materialDef n with
        | none => rfl
        | some y => exact absurd (h1.2 ⟨y, hf⟩) (by simp)
      have hno : ¬ ∃ o ∈ ops, makes n o = true := by
        intro hc
        obtain ⟨x, hx⟩ := (h.named n).2 hc
        rw [hnone] at hx
        cases hx
      have hfind : ∀ n', findByName d' .materialDef n' = if n' = n then some z else findByName l.db .materialDef n' := by
        intro n'; rw [e5]; simp
      have old : ∀ n' x, n' ≠ n → findByName d' .materialDef n' = some x → findByName l.db .materialDef n' = some x := by
        intro n' x hne hx; rw [hfind, if_neg hne] at hx; exact hx
      refine ⟨_, rfl, hg, hm, fun n' => ?_, ?_, ?_, ?_, ?_, ?_, ?_⟩
      · show (∃ x, findByName d' .materialDef n' = some x) ↔ _
        rw [hfind]
        by_cases hn : n' = n
        · subst hn
          simp [makes]
        · rw [if_neg hn, h.named n']
          constructor
          · rintro ⟨o, ho, hh⟩; exact ⟨o, by simp [ho], hh⟩
          · rintro ⟨o, ho, hh⟩
            rcases List.mem_append.1 ho with ho | ho
            · exact ⟨o, ho, hh⟩
            · rw [List.mem_singleton] at ho
              subst ho
              simp only [makes, beq_iff_eq] at hh
              exact absurd hh.symm hn
      · intro n' x hx
        show x.obj < l.next + 1
        by_cases hn : n' = n
        · have : findByName d' .materialDef n' = some x := hx
          rw [hfind, if_pos hn] at this
          injection this with this
          rw [← this, e1]; omega
        · have := h.bound n' x (old n' x hn hx); omega
      · intro n1 n2 x1 x2 hx1 hx2 ho
        have hx1' : findByName d' .materialDef n1 = some x1 := hx1
        have hx2' : findByName d' .materialDef n2 = some x2 := hx2
        by_cases hn1 : n1 = n
        · by_cases hn2 : n2 = n
          · rw [hn1, hn2]
          · rw [hfind, if_pos hn1] at hx1'
            injection hx1' with hx1'
            have := h.bound n2 x2 (old n2 x2 hn2 hx2)
            rw [← ho, ← hx1', e1] at this
            omega
        · by_cases hn2 : n2 = n
          · rw [hfind, if_pos hn2] at hx2'
            injection hx2' with hx2'
            have := h.bound n1 x1 (old n1 x1 hn1 hx1)
            rw [ho, ← hx2', e1] at this
            omega
          · exact h.inj n1 n2 x1 x2 (old n1 x1 hn1 hx1) (old n2 x2 hn2 hx2) ho
      · intro n' x hx
        have hx' : findByName d' .materialDef n' = some x := hx
        by_cases hn : n' = n
        · rw [hfind, if_pos hn] at hx'
          injection hx' with hx'
          subst hx'
          subst hn
          refine ⟨[], ?_, fun id => ?_⟩
          · show UMap.find? (l.props ++ [(l.next, [])]) z.obj = _
            rw [UMap.find?_append, e1, find_absent h.propB, UMap.find?_cons]; simp
          · unfold first
            rw [since_append, if_neg hno]
            simp [since, makes, gives, getProperty, UMap.find?_nil]
        · have hx0 := old n' x hn hx
          obtain ⟨m, hm1, hm2⟩ := h.props n' x hx0
          refine ⟨m, ?_, fun id => ?_⟩
          · show UMap.find? (l.props ++ [(l.next, [])]) x.obj = _
            rw [UMap.find?_append, hm1]; rfl
          · rw [hm2]
            unfold first
            rw [since_append, if_pos (hmade _ _ hx0), List.findSome?_append]
            simp [gives]
      · intro n' x hx
        have hx' : findByName d' .materialDef n' = some x := hx
        show UMap.find? (l.types ++ [(l.next, false)]) x.obj = _
        by_cases hn : n' = n
        · rw [hfind, if_pos hn] at hx'
          injection hx' with hx'
          subst hx'
          subst hn
          rw [UMap.find?_append, e1, find_absent h.typeB, UMap.find?_cons]
          unfold fluidLast
          rw [since_append, if_neg hno]
          simp [since, makes, kinds]
        · have hx0 := old n' x hn hx
          rw [UMap.find?_append, h.types n' x hx0]
          unfold fluidLast
          rw [since_append, if_pos (hmade _ _ hx0), List.reverse_append]
          rfl
      · intro e he
        rcases List.mem_append.1 he with he | he
        · have := h.propB e he; show e.1 < l.next + 1; omega
        · rw [List.mem_singleton] at he; subst he; show l.next < l.next + 1; omega
      · intro e he
        rcases List.mem_append.1 he with he | he
        · have := h.typeB e he; show e.1 < l.next + 1; omega
        · rw [List.mem_singleton] at he; subst he; show l.next < l.next + 1; omega
  | prop n id p =>
    have hnamed : ∀ n', (∃ x, findByName l.db .materialDef n' = some x) ↔ ∃ o ∈ ops ++ [MOp.prop n id p], makes n' o = true := by
      intro n'
      rw [h.named n']
      simp [makes]
    have hfluid : ∀ n', (∃ o ∈ ops, makes n' o = true) → fluidLast (ops ++ [MOp.prop n id p]) n' = fluidLast ops n' := by
      intro n' hc
      unfold fluidLast
      rw [since_append, if_pos hc, List.reverse_append]
      rfl
    have hfirst : ∀ n' id', (∃ o ∈ ops, makes n' o = true) →
        first (ops ++ [MOp.prop n id p]) n' id' = (first ops n' id').or (if n = n' ∧ id = id' then some p else none) := by
      intro n' id' hc
      unfold first
      rw [since_append, if_pos hc, List.findSome?_append]
      congr 1
      simp [gives]
    cases hf : findByName l.db .materialDef n with
    | none =>
      simp only [Lib.step, hf]
      refine ⟨_, rfl, h.good, h.mat, hnamed, h.bound, h.inj, ?_, ?_, h.propB, h.typeB⟩
      · intro n' x hx
        obtain ⟨m, hm1, hm2⟩ := h.props n' x hx
        refine ⟨m, hm1, fun id' => ?_⟩
        rw [hm2, hfirst n' id' (hmade _ _ hx)]
        have : ¬ n = n' := by rintro rfl; rw [hf] at hx; cases hx
        simp [this]
      · intro n' x hx
        rw [h.types n' x hx, hfluid n' (hmade _ _ hx)]
    | some y =>
      simp only [Lib.step, hf]
      refine ⟨_, rfl, h.good, h.mat, hnamed, h.bound, h.inj, ?_, ?_, mem_updObj (o := y.obj) (f := fun m => setProperty m id p) h.propB, h.typeB⟩
      · intro n' x hx
        obtain ⟨m, hm1, hm2⟩ := h.props n' x hx
        show ∃ m', UMap.find? (updObj l.props y.obj fun m => setProperty m id p) x.obj = some m' ∧
          ∀ id', getProperty m' id' = first (ops ++ [MOp.prop n id p]) n' id'
        rw [find_updObj, hm1]
        by_cases ho : x.obj = y.obj
        · have hn : n' = n := h.inj n' n x y hx hf ho
          subst hn
          rw [if_pos ho]
          refine ⟨_, rfl, fun id' => ?_⟩
          rw [hfirst n' id' (hmade _ _ hx), ← hm2]
          unfold getProperty setProperty UMap.emplace
          beta_reduce
          by_cases hc : UMap.count m id = true
          · rw [if_pos hc]
            by_cases hid : id = id'
            · subst hid
              have := (UMap.find?_isSome_iff m id).2 ((UMap.count_iff_mem_keys m id).1 hc)
              obtain ⟨v, hv⟩ := Option.isSome_iff_exists.1 this
              rw [hv]; rfl
            · simp [hid]
          · rw [if_neg hc]
            show UMap.find? (m ++ [(id, p)]) id' = _
            rw [UMap.find?_append, UMap.find?_cons, UMap.find?_nil]
            simp
        · rw [if_neg ho]
          refine ⟨m, rfl, fun id' => ?_⟩
          rw [hm2, hfirst n' id' (hmade _ _ hx)]
          have : ¬ n = n' := by
            rintro rfl
            rw [hf] at hx
            injection hx with hx
            exact ho (by rw [hx])
          simp [this]
      · intro n' x hx
        show UMap.find? l.types x.obj = _
        rw [h.types n' x hx, hfluid n' (hmade _ _ hx)]
  | type n b =>
    have hnamed : ∀ n', (∃ x, findByName l.db .materialDef n' = some x) ↔ ∃ o ∈ ops ++ [MOp.type n b], makes n' o = true := by
      intro n'
      rw [h.named n']
      simp [makes]
    have hfluid : ∀ n', (∃ o ∈ ops, makes n' o = true) →
        fluidLast (ops ++ [MOp.type n b]) n' = if n = n' then b else fluidLast ops n' := by
      intro n' hc
      unfold fluidLast
      rw [since_append, if_pos hc, List.reverse_append]
      simp only [List.reverse_singleton, List.singleton_append, List.findSome?_cons, kinds]
      by_cases hn : n = n'
      · rw [if_pos hn, if_pos hn]; rfl
      · rw [if_neg hn, if_neg hn]
    have hfirst : ∀ n' id', (∃ o ∈ ops, makes n' o = true) → first (ops ++ [MOp.type n b]) n' id' = first ops n' id' := by
      intro n' id' hc
      unfold first
      rw [since_append, if_pos hc, List.findSome?_append]
      simp [gives]
    cases hf : findByName l.db .materialDef n with
    | none =>
      simp only [Lib.step, hf]
      refine ⟨_, rfl, h.good, h.mat, hnamed, h.bound, h.inj, ?_, ?_, h.propB, h.typeB⟩
      · intro n' x hx
        obtain ⟨m, hm1, hm2⟩ := h.props n' x hx
        exact ⟨m, hm1, fun id' => by rw [hm2, hfirst n' id' (hmade _ _ hx)]⟩
      · intro n' x hx
        rw [h.types n' x hx, hfluid n' (hmade _ _ hx), if_neg]
        rintro rfl; rw [hf] at hx; cases hx
    | some y =>
      simp only [Lib.step, hf]
      refine ⟨_, rfl, h.good, h.mat, hnamed, h.bound, h.inj, ?_, ?_, h.propB, mem_updObj (o := y.obj) (f := fun _ => b) h.typeB⟩
      · intro n' x hx
        obtain ⟨m, hm1, hm2⟩ := h.props n' x hx
        exact ⟨m, hm1, fun id' => by rw [hm2, hfirst n' id' (hmade _ _ hx)]⟩
      · intro n' x hx
        show UMap.find? (updObj l.types y.obj fun _ => b) x.obj = _
        rw [find_updObj, h.types n' x hx, hfluid n' (hmade _ _ hx)]
        by_cases ho : x.obj = y.obj
        · have hn : n' = n := h.inj n' n x y hx hf ho
          rw [if_pos ho, if_pos hn.symm]; rfl
        · rw [if_neg ho, if_neg]
          rintro rfl
          rw [hf] at hx
          injection hx with hx
          exact ho (by rw [hx])

theorem linv_run {pre : List (MOp K)} {l : Lib K} (h : LInv pre l) (ops : List (MOp K)) : ∃ l', l.run ops = .ok l' ∧ LInv (pre ++ ops) l' := by
  induction ops generalizing pre l with
  | nil => exact ⟨l, rfl, by simpa using h⟩
  | cons op ops ih =>
    obtain ⟨l1, h1, h2⟩ := linv_step h op
    obtain ⟨l2, h3, h4⟩ := ih h2
    exact ⟨l2, by simp [Lib.run, h1, h3], by simpa using h4⟩

theorem linv_of {ops : List (MOp K)} {l : Lib K} (hr : Lib.empty.run ops = .ok l) : LInv ops l := by
  obtain ⟨l', h1, h2⟩ := linv_run (linv_empty (K := K)) ops
  rw [hr] at h1
  injection h1 with h1
  subst h1
  simpa using h2

theorem by_id {d : Database} (hg : Good d) (hm : MatOk d 0) {n : String} {x : Defn} (hx : findByName d .materialDef n = some x) :
    findById d x.matId = some x.obj := by
  obtain ⟨c, hc, h1, -, h3⟩ := hm.ex
  have hmem := (mem_defs_iff hg hc n x).2 hx
  unfold findById
  rw [hc]
  simp only
  have hwf : UMap.WF c.lut := by
    unfold UMap.WF UMap.keys
    rw [h3, List.drop_zero, List.map_map]
    rw [show (Prod.fst ∘ lutOf) = (fun e : String × Defn => e.2.matId) from rfl, h1]
    exact List.nodup_range
  rw [UMap.find?_eq_some_iff hwf, h3, List.drop_zero]
  exact List.mem_map.2 ⟨(n, x), hmem, rfl⟩

end

/-! ## values -/

section
variable {K : Type} [Field K]

theorem sum_mapIdx (l : List K) (f : Nat → K → K) : (l.mapIdx f).sum = ∑ i ∈ Finset.range l.length, f i (l.getD i 0) := by
  induction l generalizing f with
  | nil => simp
  | cons a l ih =>
    rw [List.mapIdx_cons, List.sum_cons, ih, List.length_cons, Finset.sum_range_succ']
    simp [add_comm]

theorem calculate_eval {c : List K} (h : c ≠ []) (t : K) : calculate c t = .ok (evalAt c t) := by
  cases c with
  | nil => exact absurd rfl h
  | cons a c =>
    rw [(c56_polynomial t).1 a c, sum_mapIdx]
    unfold evalAt
    congr 1
    exact Finset.sum_congr rfl fun i _ => mul_comm _ _

theorem prop_eq {ops : List (MOp K)} {l : Lib K} (h : LInv ops l) {n : String} {x : Defn} (hx : findByName l.db .materialDef n = some x) (id : Int) :
    l.prop x.matId id = match first ops n id with | some p => .ok p | none => .ub := by
  obtain ⟨m, hm1, hm2⟩ := h.props n x hx
  unfold Lib.prop
  simp only [by_id h.good h.mat hx, hm1, hm2]
  cases first ops n id <;> rfl

/-- **C142.** No history of calls that make materials and give them properties and kinds goes wrong; the materials are those that were made; a lookup
by the id of a material uses the property that was the first to be given to it, and a null pointer if none was. -/
theorem c142_prop (ops : List (MOp K)) :
    ∃ l, Lib.empty.run ops = .ok l ∧ (∀ n, (∃ x, findByName l.db .materialDef n = some x) ↔ ∃ o ∈ ops, makes n o = true) ∧
      ∀ n x, findByName l.db .materialDef n = some x →
        ∀ id, l.prop x.matId id = match first ops n id with | some p => .ok p | none => .ub := by
  obtain ⟨l, h1, h2⟩ := linv_run (linv_empty (K := K)) ops
  rw [List.nil_append] at h2
  exact ⟨l, h1, h2.named, fun n x hx id => prop_eq h2 hx id⟩

theorem plain_aniso {p : MProp K} (h : Plain p) (t : K) (i : Nat) (hi : i < 3) : ∃ v, along p t i = some v ∧ p.anisoAt t i = .ok (some v) := by
  cases h with
  | one a =>
    refine ⟨a, rfl, ?_⟩
    unfold MProp.anisoAt getAnisotropic
    simp only [show ¬ i ≥ 3 by omega, if_false]
    rfl
  | three a b c =>
    interval_cases i
    · exact ⟨a, rfl, rfl⟩
    · exact ⟨b, rfl, rfl⟩
    · exact ⟨c, rfl, rfl⟩
  | poly1 c h =>
    refine ⟨evalAt c t, rfl, ?_⟩
    show (polyAnisotropic [c] t i).bind _ = _
    rw [((c56_polynomial t).2.1 c i 0).1, calculate_eval h]
    rfl
  | poly3 c0 c1 c2 h0 h1 h2 =>
    interval_cases i
    · refine ⟨evalAt c0 t, rfl, ?_⟩
      show (polyAnisotropic [c0, c1, c2] t 0).bind _ = _
      rw [((c56_polynomial t).2.2.1 [c0, c1, c2] 0 0 c0 rfl rfl).1, calculate_eval h0]
      rfl
    · refine ⟨evalAt c1 t, rfl, ?_⟩
      show (polyAnisotropic [c0, c1, c2] t 1).bind _ = _
      rw [((c56_polynomial t).2.2.1 [c0, c1, c2] 1 0 c1 rfl rfl).1, calculate_eval h1]
      rfl
    · refine ⟨evalAt c2 t, rfl, ?_⟩
      show (polyAnisotropic [c0, c1, c2] t 2).bind _ = _
      rw [((c56_polynomial t).2.2.1 [c0, c1, c2] 2 0 c2 rfl rfl).1, calculate_eval h2]
      rfl

/-- **C142**, conductivities: of a material whose first conductivity is of one or three values or polynomials, the network uses what it says along each
axis at the temperature. Missing: the diagonal of tensors, see `c142_tensor_refuted`, and tables, see `c142_table_refuted`. -/
theorem c142_conductivity_partial {ops : List (MOp K)} {l : Lib K} (hr : Lib.empty.run ops = .ok l) {n : String} {x : Defn}
    (hx : findByName l.db .materialDef n = some x) {p : MProp K} (hp : first ops n 14 = some p) (hpl : Plain p) (t : K) (i : Nat) (hi : i < 3) :
    ∃ v, along p t i = some v ∧ l.conductivity x.matId t i = .ok v := by
  obtain ⟨v, h1, h2⟩ := plain_aniso hpl t i hi
  refine ⟨v, h1, ?_⟩
  unfold Lib.conductivity pidK
  rw [prop_eq (linv_of hr) hx, hp]
  simp only [Res.bind_ok, h2]
  rfl

/-- **C142**, densities, specific heats and resistivities: of a material whose first property of the kind is of one value or polynomial, the network
uses what it says at the temperature. -/
theorem c142_scalar_partial {ops : List (MOp K)} {l : Lib K} (hr : Lib.empty.run ops = .ok l) {n : String} {x : Defn}
    (hx : findByName l.db .materialDef n = some x) {id : Int} {p : MProp K} {f : K → K} (hp : first ops n id = some p) (hs : Single p f) (t : K) :
    l.scalar id x.matId t = .ok (f t) := by
  unfold Lib.scalar
  rw [prop_eq (linv_of hr) hx, hp]
  simp only [Res.bind_ok]
  cases hs with
  | one a => rfl
  | poly c h =>
    show (Res.bind (polySimple [c] t) _).bind _ = _
    rw [((c56_polynomial t).2.1 c 0 0).2.2, calculate_eval h]
    rfl

/-- **C142 fails** for tensors: along each axis the network uses the first entry of the row, so that a material with a diagonal tensor does not conduct
in the second and third axis at all; of nine polynomials the first is used along all axes. -/
theorem c142_tensor_refuted {ops : List (MOp K)} {l : Lib K} (hr : Lib.empty.run ops = .ok l) {n : String} {x : Defn}
    (hx : findByName l.db .materialDef n = some x) :
    (∀ e, first ops n 14 = some (.nine e) → ∀ t, (∀ i, along (.nine e) t i = some (e i i)) ∧ (∀ i < 3, l.conductivity x.matId t i = .ok (e i 0)) ∧
      ((∀ i j, i ≠ j → e i j = 0) → l.conductivity x.matId t 1 = .ok 0 ∧ l.conductivity x.matId t 2 = .ok 0)) ∧
    (∀ c cs, first ops n 14 = some (.poly (c :: cs)) → c ≠ [] → cs.length = 8 → ∀ t i, l.conductivity x.matId t i = .ok (evalAt c t)) := by
  have hi := linv_of hr
  constructor
  · intro e he t
    have key : ∀ i < 3, l.conductivity x.matId t i = .ok (e i 0) := by
      intro i h3
      unfold Lib.conductivity pidK
      rw [prop_eq hi hx, he]
      simp only [Res.bind_ok]
      interval_cases i <;> rfl
    refine ⟨fun i => rfl, key, fun hd => ⟨?_, ?_⟩⟩
    · rw [key 1 (by omega), hd 1 0 (by omega)]
    · rw [key 2 (by omega), hd 2 0 (by omega)]
  · intro c cs hc hne hl t i
    unfold Lib.conductivity pidK
    rw [prop_eq hi hx, hc]
    simp only [Res.bind_ok]
    unfold MProp.anisoAt polyAnisotropic
    simp only [List.length_cons, hl, show ¬ (8 + 1 = 3) by omega, if_false]
    show (Res.bind (Res.bind (Res.ok c) _) _).bind _ = _
    simp only [Res.bind_ok, calculate_eval hne]
    rfl

/-- **C142 fails** for tables: conductivities are read without having been set, and all other properties are zero. -/
theorem c142_table_refuted {ops : List (MOp K)} {l : Lib K} (hr : Lib.empty.run ops = .ok l) {n : String} {x : Defn}
    (hx : findByName l.db .materialDef n = some x) (t : K) :
    (first ops n 14 = some .table → ∀ i, l.conductivity x.matId t i = .ub) ∧
    (∀ id, first ops n id = some .table → l.scalar id x.matId t = .ok 0) := by
  have hi := linv_of hr
  constructor
  · intro h i
    unfold Lib.conductivity pidK
    rw [prop_eq hi hx, h]
    rfl
  · intro id h
    unfold Lib.scalar
    rw [prop_eq hi hx, h]
    rfl

/-- **C142 fails** for copies of a database: the table of ids is not copied, and every lookup uses a null pointer. -/
theorem c142_copy_refuted (l : Lib K) (mat : Nat) (id : Int) (t : K) (i : Nat) :
    l.copy.prop mat id = .ub ∧ l.copy.conductivity mat t i = .ub ∧ l.copy.scalar id mat t = .ub := by
  have h : l.copy.prop mat id = .ub ∧ l.copy.prop mat pidK = .ub := by
    unfold Lib.prop
    rw [show l.copy.db = assign (2 * l.next + 1) l.db (l.next + 1) from rfl, (c92_copy_refuted l.db _ _ mat).1]
    exact ⟨rfl, rfl⟩
  refine ⟨h.1, ?_, ?_⟩
  · unfold Lib.conductivity; rw [h.2]; rfl
  · unfold Lib.scalar; rw [h.1]; rfl

/-- **C142**, fluids: the materials left out of a model are exactly those that were last called fluid. -/
theorem c142_fluid {ops : List (MOp K)} {l : Lib K} (hr : Lib.empty.run ops = .ok l) {n : String} {x : Defn}
    (hx : findByName l.db .materialDef n = some x) : x.matId ∈ l.fluids ↔ fluidLast ops n = true := by
  have hi := linv_of hr
  obtain ⟨c, hc, h1, -, -⟩ := hi.mat.ex
  have hmem := (mem_defs_iff hi.good hc n x).2 hx
  unfold Lib.fluids
  rw [hc]
  simp only [Option.map_some, Option.getD_some, List.mem_filterMap, Option.ite_none_right_eq_some, Option.some.injEq]
  constructor
  · rintro ⟨⟨n', x'⟩, hm, ht, hid⟩
    have := inj_ids h1 hm hmem hid
    injection this with e1 e2
    simp only at ht
    rw [e2, hi.types n x hx] at ht
    simpa using ht
  · intro ht
    exact ⟨(n, x), hmem, by rw [hi.types n x hx, ht], rfl⟩

/-! ## networks -/

/-- the same model with other materials -/
def withMat (m : PrismT.PModel K) (k : Nat → K → Fin 3 → K) (heat rho resist : Nat → K → K) : PrismT.PModel K :=
  { m with k := k, heat := heat, rho := rho, resist := resist }

/-- two sets of materials that are the same for all materials of the elements of a model -/
structure Agree (m : PrismT.PModel K) (k k' : Nat → K → Fin 3 → K) (heat heat' rho rho' res res' : Nat → K → K) : Prop where
  prism : ∀ p ∈ m.prisms, k p.elem.cell.mat = k' p.elem.cell.mat ∧ heat p.elem.cell.mat = heat' p.elem.cell.mat ∧
    rho p.elem.cell.mat = rho' p.elem.cell.mat
  line : ∀ x ∈ m.lines, k x.mat = k' x.mat ∧ heat x.mat = heat' x.mat ∧ rho x.mat = rho' x.mat ∧ (x.current ≠ 0 → res x.mat = res' x.mat)

open PrismT in
theorem link_congr {m m' : PModel K} (h : m.prisms = m'.prisms) (iniT : List K) (i : Nat) (n : Option Nat) {r r' : Prism K → K → K}
    (hr : ∀ q ∈ m.prisms, r q = r' q) : m.link iniT i n r = m'.link iniT i n r' := by
  unfold PModel.link
  cases n with
  | none => rfl
  | some n =>
    dsimp only
    rw [← h]
    by_cases hi : i < n
    · rw [if_pos hi, if_pos hi]
      cases hq : m.prisms[n]? with
      | none => rfl
      | some q =>
        cases iniT[n]? with
        | none => rfl
        | some t => dsimp only; rw [hr q (List.mem_of_getElem? hq)]
    · rw [if_neg hi, if_neg hi]

open PrismT in
theorem lines_congr [LinearOrder K] {m : PModel K} {k k' : Nat → K → Fin 3 → K} {heat heat' rho rho' res res' : Nat → K → K}
    (h : Agree m k k' heat heat' rho rho' res res') (iniT : List K) :
    ∀ x ∈ m.lines, (withMat m k heat rho res).lineOps iniT x = (withMat m k' heat' rho' res').lineOps iniT x := by
  intro x hx
  obtain ⟨e1, e2, e3, e4⟩ := h.line x hx
  unfold PModel.lineOps
  cases iniT[x.id]? with
  | none => rfl
  | some t =>
    have hj : (withMat m k heat rho res).joule x t = (withMat m k' heat' rho' res').joule x t := by
      unfold PModel.joule
      by_cases hc : x.current = 0
      · rw [if_pos hc, if_pos hc]
      · rw [if_neg hc, if_neg hc]
        simp only [withMat, e4 hc]
    have ha : ∀ y ∈ m.lines, (withMat m k heat rho res).aveK y.mat = (withMat m k' heat' rho' res').aveK y.mat := by
      intro y hy
      funext t'
      unfold PModel.aveK
      simp only [withMat, (h.line y hy).1]
    have hR : (withMat m k heat rho res).lineR x t = (withMat m k' heat' rho' res').lineR x t := by
      funext nb
      unfold PModel.lineR
      rw [ha x hx]
      show (if isPrima m.off nb then _ else if x.id < nb then (match m.lines[lineLocalIndex m.off nb]? with | some q => _ | none => _) else _) =
        (if isPrima m.off nb then _ else if x.id < nb then (match m.lines[lineLocalIndex m.off nb]? with | some q => _ | none => _) else _)
      cases hq : m.lines[lineLocalIndex m.off nb]? with
      | none => rfl
      | some q =>
        dsimp only
        rw [ha q (List.mem_of_getElem? hq)]
    dsimp only
    rw [hj, hR]
    simp only [withMat, e2, e3]

open PrismT in
theorem ops_congr [LinearOrder K] {m : PModel K} {k k' : Nat → K → Fin 3 → K} {heat heat' rho rho' res res' : Nat → K → K}
    (h : Agree m k k' heat heat' rho rho' res res') (iniT : List K) :
    (withMat m k heat rho res).ops iniT = (withMat m k' heat' rho' res').ops iniT := by
  have he : ∀ i, (withMat m k heat rho res).elemOps iniT i = (withMat m k' heat' rho' res').elemOps iniT i := by
    intro i
    unfold PModel.elemOps
    show (match m.prisms[i]?, iniT[i]? with | some p, some t => _ | _, _ => _) = (match m.prisms[i]?, iniT[i]? with | some p, some t => _ | _, _ => _)
    cases hp : m.prisms[i]? with
    | none => rfl
    | some p =>
      cases iniT[i]? with
      | none => rfl
      | some t =>
        obtain ⟨e1, e2, e3⟩ := h.prism p (List.mem_of_getElem? hp)
        have side : ∀ e : Fin 3, ∀ q ∈ m.prisms, (fun tq => (withMat m k heat rho res).sideR p q e t tq) = fun tq => (withMat m k' heat' rho' res').sideR p q e t tq := by
          intro e q hq
          funext tq
          obtain ⟨f1, -, -⟩ := h.prism q hq
          unfold PModel.sideR
          simp only [withMat, e1, f1]
        have vert : ∀ q ∈ m.prisms, (fun tq => (withMat m k heat rho res).vertR p q t tq) = fun tq => (withMat m k' heat' rho' res').vertR p q t tq := by
          intro q hq
          funext tq
          obtain ⟨f1, -, -⟩ := h.prism q hq
          unfold PModel.vertR
          simp only [withMat, e1, f1]
        have hm : (withMat m k heat rho res).prisms = (withMat m k' heat' rho' res').prisms := rfl
        dsimp only
        rw [link_congr hm iniT i (p.edge 0) (side 0), link_congr hm iniT i (p.edge 1) (side 1), link_congr hm iniT i (p.edge 2) (side 2),
          link_congr hm iniT i p.top vert, link_congr hm iniT i p.bot vert]
        simp only [withMat, e2, e3]
        rfl
  have hl := lines_congr h iniT
  unfold PModel.ops PModel.rangeOps
  rw [show (withMat m k heat rho res).elemOps iniT = (withMat m k' heat' rho' res').elemOps iniT from funext he]
  congr 1
  congr 1
  exact List.flatMap_congr hl

theorem build_congr [LinearOrder K] {m : PrismT.PModel K} {k k' : Nat → K → Fin 3 → K} {heat heat' rho rho' res res' : Nat → K → K}
    (h : Agree m k k' heat heat' rho rho' res res') (minR : K) (iniT : List K) :
    (withMat m k heat rho res).build minR iniT = (withMat m k' heat' rho' res').build minR iniT := by
  unfold PrismT.PModel.build
  rw [ops_congr h]
  rfl

/-- A material has conductivities along the axes, a specific heat and a density by the first of its properties. -/
def Given (ops : List (MOp K)) (l : Lib K) (mat : Nat) (k : K → Fin 3 → K) (heat rho : K → K) : Prop :=
  ∃ n x, findByName l.db .materialDef n = some x ∧ x.matId = mat ∧
    (∃ p, first ops n 14 = some p ∧ Plain p ∧ ∀ t (i : Fin 3), along p t i = some (k t i)) ∧
    (∃ p, first ops n 38 = some p ∧ Single p heat) ∧ ∃ p, first ops n 34 = some p ∧ Single p rho

/-- A material has a resistivity. -/
def GivenRes (ops : List (MOp K)) (l : Lib K) (mat : Nat) (res : K → K) : Prop :=
  ∃ n x, findByName l.db .materialDef n = some x ∧ x.matId = mat ∧ ∃ p, first ops n 8 = some p ∧ Single p res

theorem given_values {ops : List (MOp K)} {l : Lib K} (hr : Lib.empty.run ops = .ok l) {mat : Nat} {k : K → Fin 3 → K} {heat rho : K → K}
    (h : Given ops l mat k heat rho) (t : K) :
    (∀ i : Fin 3, l.conductivity mat t i = .ok (k t i)) ∧ l.scalar pidHeat mat t = .ok (heat t) ∧ l.scalar pidRho mat t = .ok (rho t) := by
  obtain ⟨n, x, hx, rfl, ⟨p, hp, hpl, hk⟩, ⟨q, hq, hqs⟩, s, hs, hss⟩ := h
  refine ⟨fun i => ?_, c142_scalar_partial hr hx hq hqs t, c142_scalar_partial hr hx hs hss t⟩
  obtain ⟨v, h1, h2⟩ := c142_conductivity_partial hr hx hp hpl t i i.2
  rw [hk t i] at h1
  injection h1 with h1
  rw [h2, h1]

theorem given_res {ops : List (MOp K)} {l : Lib K} (hr : Lib.empty.run ops = .ok l) {mat : Nat} {res : K → K} (h : GivenRes ops l mat res) (t : K) :
    l.scalar pidRes mat t = .ok (res t) := by
  obtain ⟨n, x, hx, rfl, p, hp, hps⟩ := h
  exact c142_scalar_partial hr hx hp hps t

theorem lookups_ok {ops : List (MOp K)} {l : Lib K} (hr : Lib.empty.run ops = .ok l) {mat : Nat} {k : K → Fin 3 → K} {heat rho res : K → K}
    (h : Given ops l mat k heat rho) (b : Bool) (hb : b = true → GivenRes ops l mat res) (t : K) : l.lookups mat t b = .ok () := by
  obtain ⟨h1, h2, h3⟩ := given_values hr h t
  have e0 := h1 0
  have e1 := h1 1
  have e2 := h1 2
  simp only [Fin.val_zero, Fin.val_one, Fin.val_two] at e0 e1 e2
  unfold Lib.lookups
  simp only [h2, h3, e0, e1, e2, Res.bind_ok]
  cases b with
  | false => rfl
  | true => simp only [if_true, given_res hr (hb rfl) t, Res.bind_ok]

theorem allOk_ok {rs : List (Res Unit)} (h : ∀ r ∈ rs, r = .ok ()) : allOk rs = .ok () := by
  induction rs with
  | nil => rfl
  | cons r rs ih =>
    unfold allOk
    rw [h r (by simp)]
    exact ih fun r' hr' => h r' (by simp [hr'])

/-- **C142**, networks: if the materials of all prisms and segments have conductivities, specific heat and density, and those of the segments with a
current a resistivity, by the first properties given to them, then the network built with the materials of the database is the one of the model with
these values at the temperatures of the elements. -/
theorem c142_network_partial [LinearOrder K] {ops : List (MOp K)} {l : Lib K} (hr : Lib.empty.run ops = .ok l) {m : PrismT.PModel K}
    {k : Nat → K → Fin 3 → K} {heat rho res : Nat → K → K}
    (hp : ∀ p ∈ m.prisms, Given ops l p.elem.cell.mat (k p.elem.cell.mat) (heat p.elem.cell.mat) (rho p.elem.cell.mat))
    (hl : ∀ x ∈ m.lines, Given ops l x.mat (k x.mat) (heat x.mat) (rho x.mat) ∧ (x.current ≠ 0 → GivenRes ops l x.mat (res x.mat)))
    (minR : K) (iniT : List K) : buildLib l minR m iniT = (withMat m k heat rho res).build minR iniT := by
  have hb : (withLib l m).build minR iniT = (withMat m k heat rho res).build minR iniT := by
    refine build_congr (m := m) ⟨fun p hpm => ⟨?_, ?_, ?_⟩, fun x hx => ⟨?_, ?_, ?_, fun hc => ?_⟩⟩ minR iniT
    · funext t i; rw [(given_values hr (hp p hpm) t).1 i]; rfl
    · funext t; rw [(given_values hr (hp p hpm) t).2.1]; rfl
    · funext t; rw [(given_values hr (hp p hpm) t).2.2]; rfl
    · funext t i; rw [(given_values hr (hl x hx).1 t).1 i]; rfl
    · funext t; rw [(given_values hr (hl x hx).1 t).2.1]; rfl
    · funext t; rw [(given_values hr (hl x hx).1 t).2.2]; rfl
    · funext t; rw [given_res hr ((hl x hx).2 hc) t]; rfl
  unfold buildLib
  by_cases ht : iniT.length ≠ m.total
  · rw [if_pos ht]
    unfold PrismT.PModel.build
    rw [if_pos (show iniT.length ≠ (withMat m k heat rho res).total from ht)]
  · rw [if_neg ht, allOk_ok, Res.bind_ok, hb]
    intro r hrm
    rcases List.mem_append.1 hrm with hm | hm
    · obtain ⟨⟨p, j⟩, hpj, rfl⟩ := List.mem_map.1 hm
      rw [List.mem_zipIdx_iff_getElem?] at hpj
      exact lookups_ok (res := res 0) hr (hp p (List.mem_of_getElem? hpj)) false (by simp) _
    · obtain ⟨x, hx, rfl⟩ := List.mem_map.1 hm
      exact lookups_ok (res := res x.mat) hr (hl x hx).1 _ (fun hd => (hl x hx).2 (by simpa using hd)) _

/-! ## networks of stackup prism models -/

/-- the same model with other materials -/
def withMatS (m : PrismT.SModel K) (k : Nat → K → Fin 3 → K) (heat rho resist : Nat → K → K) : PrismT.SModel K :=
  { m with k := k, heat := heat, rho := rho, resist := resist }

open PrismT in
theorem slink_congr {m m' : SModel K} (h : m.prisms = m'.prisms) (iniT : List K) (i : Nat) (n : Option Nat) {r r' : SPrism K → K → K}
    (hr : ∀ q ∈ m.prisms, r q = r' q) : m.link iniT i n r = m'.link iniT i n r' := by
  unfold SModel.link
  cases n with
  | none => rfl
  | some n =>
    dsimp only
    rw [← h]
    by_cases hi : i < n
    · rw [if_pos hi, if_pos hi]
      cases hq : m.prisms[n]? with
      | none => rfl
      | some q =>
        cases iniT[n]? with
        | none => rfl
        | some t => dsimp only; rw [hr q (List.mem_of_getElem? hq)]
    · rw [if_neg hi, if_neg hi]

open PrismT in
theorem sops_congr [LinearOrder K] {m : SModel K} {k k' : Nat → K → Fin 3 → K} {heat heat' rho rho' res res' : Nat → K → K}
    (h : Agree m.wires k k' heat heat' rho rho' res res') (iniT : List K) :
    (withMatS m k heat rho res).ops iniT = (withMatS m k' heat' rho' res').ops iniT := by
  have hprism : ∀ p ∈ m.prisms, k p.base.elem.cell.mat = k' p.base.elem.cell.mat ∧ heat p.base.elem.cell.mat = heat' p.base.elem.cell.mat ∧
      rho p.base.elem.cell.mat = rho' p.base.elem.cell.mat := fun p hp => h.prism p.base (List.mem_map_of_mem hp)
  have he : ∀ i, (withMatS m k heat rho res).elemOps iniT i = (withMatS m k' heat' rho' res').elemOps iniT i := by
    intro i
    unfold SModel.elemOps
    show (match m.prisms[i]?, iniT[i]? with | some p, some t => _ | _, _ => _) = (match m.prisms[i]?, iniT[i]? with | some p, some t => _ | _, _ => _)
    cases hp : m.prisms[i]? with
    | none => rfl
    | some p =>
      cases iniT[i]? with
      | none => rfl
      | some t =>
        obtain ⟨e1, e2, e3⟩ := hprism p (List.mem_of_getElem? hp)
        have side : ∀ e : Fin 3, ∀ q ∈ m.prisms, (fun tq => (withMatS m k heat rho res).sideR p q e t tq) = fun tq => (withMatS m k' heat' rho' res').sideR p q e t tq := by
          intro e q hq
          funext tq
          obtain ⟨f1, -, -⟩ := hprism q hq
          unfold SModel.sideR
          simp only [withMatS, e1, f1]
        have cont : ∀ c, (withMatS m k heat rho res).contactOp iniT i p t c = (withMatS m k' heat' rho' res').contactOp iniT i p t c := by
          intro c
          unfold SModel.contactOp
          by_cases hc : c.1 < i
          · rw [if_pos hc, if_pos hc]
          · rw [if_neg hc, if_neg hc]
            show (match m.prisms[c.1]?, iniT[c.1]? with | some p, some t => _ | _, _ => _) = (match m.prisms[c.1]?, iniT[c.1]? with | some p, some t => _ | _, _ => _)
            cases hq : m.prisms[c.1]? with
            | none => rfl
            | some q =>
              cases iniT[c.1]? with
              | none => rfl
              | some tq =>
                dsimp only
                obtain ⟨f1, -, -⟩ := hprism q (List.mem_of_getElem? hq)
                unfold SModel.contactR
                simp only [withMatS, e1, f1]
                rfl
        have conts : ∀ bc cs, (withMatS m k heat rho res).contactsOps iniT i p t bc cs = (withMatS m k' heat' rho' res').contactsOps iniT i p t bc cs := by
          intro bc cs
          unfold SModel.contactsOps
          rw [show (withMatS m k heat rho res).contactOp iniT i p t = (withMatS m k' heat' rho' res').contactOp iniT i p t from funext cont]
          rfl
        have htop : (withMatS m k heat rho res).topOps iniT i p t = (withMatS m k' heat' rho' res').topOps iniT i p t := by
          unfold SModel.topOps
          cases p.base.top with
          | none => rfl
          | some n => dsimp only; rw [conts]; rfl
        have hbot : (withMatS m k heat rho res).botOps iniT i p t = (withMatS m k' heat' rho' res').botOps iniT i p t := by
          unfold SModel.botOps
          cases p.base.bot with
          | none => rfl
          | some n => dsimp only; rw [conts]; rfl
        have hm : (withMatS m k heat rho res).prisms = (withMatS m k' heat' rho' res').prisms := rfl
        dsimp only
        congr 1
        unfold SModel.restOps
        rw [slink_congr hm iniT i (p.base.edge 0) (side 0), slink_congr hm iniT i (p.base.edge 1) (side 1),
          slink_congr hm iniT i (p.base.edge 2) (side 2), htop, hbot]
        simp only [withMatS, e2, e3]
        rfl
  have hl := lines_congr h iniT
  unfold SModel.ops SModel.rangeOps
  rw [show (withMatS m k heat rho res).elemOps iniT = (withMatS m k' heat' rho' res').elemOps iniT from funext he]
  congr 1
  congr 1
  exact List.flatMap_congr hl

/-- **C142**, networks of stackup prism models: the same, as for prism models. -/
theorem c142_stack_partial [LinearOrder K] {ops : List (MOp K)} {l : Lib K} (hr : Lib.empty.run ops = .ok l) {m : PrismT.SModel K}
    {k : Nat → K → Fin 3 → K} {heat rho res : Nat → K → K}
    (hp : ∀ p ∈ m.prisms, Given ops l p.base.elem.cell.mat (k p.base.elem.cell.mat) (heat p.base.elem.cell.mat) (rho p.base.elem.cell.mat))
    (hl : ∀ x ∈ m.lines, Given ops l x.mat (k x.mat) (heat x.mat) (rho x.mat) ∧ (x.current ≠ 0 → GivenRes ops l x.mat (res x.mat)))
    (minR : K) (iniT : List K) : buildLibS l minR m iniT = (withMatS m k heat rho res).build minR iniT := by
  have hb : (withLibS l m).build minR iniT = (withMatS m k heat rho res).build minR iniT := by
    unfold PrismT.SModel.build
    have : (withLibS l m).ops iniT = (withMatS m k heat rho res).ops iniT := by
      refine sops_congr (m := m) ⟨fun q hq => ?_, fun x hx => ⟨?_, ?_, ?_, fun hc => ?_⟩⟩ iniT
      · obtain ⟨p, hpm, rfl⟩ := List.mem_map.1 (show q ∈ m.prisms.map PrismT.SPrism.base from hq)
        refine ⟨?_, ?_, ?_⟩
        · funext t i; rw [(given_values hr (hp p hpm) t).1 i]; rfl
        · funext t; rw [(given_values hr (hp p hpm) t).2.1]; rfl
        · funext t; rw [(given_values hr (hp p hpm) t).2.2]; rfl
      · funext t i; rw [(given_values hr (hl x hx).1 t).1 i]; rfl
      · funext t; rw [(given_values hr (hl x hx).1 t).2.1]; rfl
      · funext t; rw [(given_values hr (hl x hx).1 t).2.2]; rfl
      · funext t; rw [given_res hr ((hl x hx).2 hc) t]; rfl
    rw [this]
    rfl
  unfold buildLibS
  by_cases ht : iniT.length ≠ m.total
  · rw [if_pos ht]
    unfold PrismT.SModel.build
    rw [if_pos (show iniT.length ≠ (withMatS m k heat rho res).total from ht)]
  · rw [if_neg ht, allOk_ok, Res.bind_ok, hb]
    intro r hrm
    rcases List.mem_append.1 hrm with hm | hm
    · obtain ⟨⟨p, j⟩, hpj, rfl⟩ := List.mem_map.1 hm
      rw [List.mem_zipIdx_iff_getElem?] at hpj
      exact lookups_ok (res := res 0) hr (hp p (List.mem_of_getElem? hpj)) false (by simp) _
    · obtain ⟨x, hx, rfl⟩ := List.mem_map.1 hm
      exact lookups_ok (res := res x.mat) hr (hl x hx).1 _ (fun hd => (hl x hx).2 (by simpa using hd)) _

/-! ## lookups that go wrong -/

theorem calc_cases (c : List K) (t : K) : calculate c t = .ub ∨ ∃ v, calculate c t = .ok v := by
  cases c with
  | nil => exact .inl rfl
  | cons a c => exact .inr ⟨_, rfl⟩

theorem scalar_cases (l : Lib K) (id : Int) (mat : Nat) (t : K) : l.scalar id mat t = .ub ∨ ∃ v, l.scalar id mat t = .ok v := by
  have hp : l.prop mat id = .ub ∨ ∃ p, l.prop mat id = .ok p := by
    unfold Lib.prop
    split
    · exact .inl rfl
    · split
      · exact .inl rfl
      · split
        · exact .inl rfl
        · exact .inr ⟨_, rfl⟩
  unfold Lib.scalar
  rcases hp with hp | ⟨p, hp⟩
  · rw [hp]; exact .inl rfl
  · rw [hp, Res.bind_ok]
    cases p with
    | one a => exact .inr ⟨_, rfl⟩
    | three a b c => exact .inr ⟨_, rfl⟩
    | nine e => exact .inr ⟨_, rfl⟩
    | table => exact .inr ⟨_, rfl⟩
    | poly cs =>
      cases cs with
      | nil => exact .inl rfl
      | cons c cs =>
        show (Res.bind (calculate c t) _).bind _ = _ ∨ ∃ v, (Res.bind (calculate c t) _).bind _ = _
        rcases calc_cases c t with h | ⟨v, h⟩ <;> rw [h]
        · exact .inl rfl
        · exact .inr ⟨_, rfl⟩

theorem cond_cases (l : Lib K) (mat : Nat) (t : K) (i : Nat) (hi : i < 3) : l.conductivity mat t i = .ub ∨ ∃ v, l.conductivity mat t i = .ok v := by
  have hp : l.prop mat pidK = .ub ∨ ∃ p, l.prop mat pidK = .ok p := by
    unfold Lib.prop
    split
    · exact .inl rfl
    · split
      · exact .inl rfl
      · split
        · exact .inl rfl
        · exact .inr ⟨_, rfl⟩
  unfold Lib.conductivity
  rcases hp with hp | ⟨p, hp⟩
  · rw [hp]; exact .inl rfl
  · rw [hp, Res.bind_ok]
    cases p with
    | one a => interval_cases i <;> exact .inr ⟨_, rfl⟩
    | three a b c => interval_cases i <;> exact .inr ⟨_, rfl⟩
    | nine e => interval_cases i <;> exact .inr ⟨_, rfl⟩
    | table => exact .inl rfl
    | poly cs =>
      have : (if cs.length = 3 then Res.at_ cs i else front cs) = .ub ∨ ∃ c, (if cs.length = 3 then Res.at_ cs i else front cs) = .ok c := by
        by_cases h3 : cs.length = 3
        · rw [if_pos h3]
          unfold Res.at_
          rw [List.getElem?_eq_getElem (by omega)]
          exact .inr ⟨_, rfl⟩
        · rw [if_neg h3]
          cases cs with
          | nil => exact .inl rfl
          | cons c cs => exact .inr ⟨c, rfl⟩
      unfold MProp.anisoAt polyAnisotropic
      rcases this with h | ⟨c, h⟩
      · dsimp only; rw [h]; exact .inl rfl
      · dsimp only
        rw [h, Res.bind_ok]
        rcases calc_cases c t with h | ⟨v, h⟩ <;> rw [h]
        · exact .inl rfl
        · exact .inr ⟨_, rfl⟩

theorem bind_cases {α β : Type} {r : Res α} {f : α → Res β} (h : r = .ub ∨ ∃ v, r = .ok v) (hf : ∀ v, f v = .ub ∨ ∃ w, f v = .ok w) :
    r.bind f = .ub ∨ ∃ w, r.bind f = .ok w := by
  rcases h with h | ⟨v, h⟩
  · rw [h]; exact .inl rfl
  · rw [h]; exact hf v

theorem lookups_cases (l : Lib K) (mat : Nat) (t : K) (b : Bool) : l.lookups mat t b = .ub ∨ ∃ v, l.lookups mat t b = .ok v := by
  unfold Lib.lookups
  refine bind_cases (scalar_cases l pidHeat mat t) fun _ => bind_cases (scalar_cases l pidRho mat t) fun _ =>
    bind_cases (cond_cases l mat t 0 (by omega)) fun _ => bind_cases (cond_cases l mat t 1 (by omega)) fun _ =>
    bind_cases (cond_cases l mat t 2 (by omega)) fun _ => ?_
  cases b with
  | false => exact .inr ⟨_, rfl⟩
  | true => exact bind_cases (scalar_cases l pidRes mat t) fun _ => .inr ⟨_, rfl⟩

theorem bind_ub_cases {α β : Type} {r : Res α} {f : α → Res β} (h : r = .ub ∨ ∃ v, r = .ok v) (hf : ∀ v, f v = .ub) : r.bind f = .ub := by
  rcases h with h | ⟨v, h⟩
  · rw [h]; rfl
  · rw [h]; exact hf v

theorem lookups_ub {l : Lib K} {mat : Nat} {id : Int} (hid : id = pidK ∨ id = pidHeat ∨ id = pidRho) (h : l.prop mat id = .ub) (t : K) (b : Bool) :
    l.lookups mat t b = .ub := by
  unfold Lib.lookups
  rcases hid with rfl | rfl | rfl
  · refine bind_ub_cases (scalar_cases l pidHeat mat t) fun _ => bind_ub_cases (scalar_cases l pidRho mat t) fun _ => ?_
    unfold Lib.conductivity
    rw [h]; rfl
  · unfold Lib.scalar
    rw [h]; rfl
  · refine bind_ub_cases (scalar_cases l pidHeat mat t) fun _ => ?_
    unfold Lib.scalar
    rw [h]; rfl

theorem allOk_ub {rs : List (Res Unit)} (h : ∀ r ∈ rs, r = .ub ∨ ∃ v, r = .ok v) (hu : .ub ∈ rs) : allOk rs = .ub := by
  induction rs with
  | nil => cases hu
  | cons r rs ih =>
    unfold allOk
    rcases h r (by simp) with hr | ⟨v, hr⟩
    · rw [hr]; rfl
    · rw [hr, Res.bind_ok]
      refine ih (fun r' hr' => h r' (by simp [hr'])) ?_
      rcases List.mem_cons.1 hu with he | he
      · rw [hr] at he; cases he
      · exact he

/-- **C142 fails** for materials that lack a property: if the material of one prism or segment was given no conductivity, no specific heat or no
density, building the network uses a null pointer. -/
theorem c142_missing_refuted [LinearOrder K] {ops : List (MOp K)} {l : Lib K} (hr : Lib.empty.run ops = .ok l) {m : PrismT.PModel K} {n : String} {x : Defn}
    (hx : findByName l.db .materialDef n = some x) (he : (∃ p ∈ m.prisms, p.elem.cell.mat = x.matId) ∨ ∃ y ∈ m.lines, y.mat = x.matId) {id : Int}
    (hid : id = 14 ∨ id = 38 ∨ id = 34) (hno : first ops n id = none) (minR : K) {iniT : List K} (ht : iniT.length = m.total) :
    buildLib l minR m iniT = .ub := by
  have hub : l.prop x.matId id = .ub := by rw [prop_eq (linv_of hr) hx, hno]
  unfold buildLib
  rw [if_neg (by simp [ht]), allOk_ub]
  · rfl
  · intro r hrm
    rcases List.mem_append.1 hrm with hm | hm
    · obtain ⟨p, -, rfl⟩ := List.mem_map.1 hm
      exact lookups_cases _ _ _ _
    · obtain ⟨y, -, rfl⟩ := List.mem_map.1 hm
      exact lookups_cases _ _ _ _
  · rw [List.mem_append]
    rcases he with ⟨p, hp, hpm⟩ | ⟨y, hy, hym⟩
    · obtain ⟨j, hj⟩ := List.getElem?_of_mem hp
      refine .inl (List.mem_map.2 ⟨(p, j), List.mem_zipIdx_iff_getElem?.2 hj, ?_⟩)
      dsimp only
      rw [hpm]
      exact lookups_ub hid hub _ _
    · refine .inr (List.mem_map.2 ⟨y, hy, ?_⟩)
      rw [hym]
      exact lookups_ub hid hub _ _

/-- **C142 fails** for stackup prism models in the same way. -/
theorem c142_stack_missing_refuted [LinearOrder K] {ops : List (MOp K)} {l : Lib K} (hr : Lib.empty.run ops = .ok l) {m : PrismT.SModel K} {n : String}
    {x : Defn} (hx : findByName l.db .materialDef n = some x)
    (he : (∃ p ∈ m.prisms, p.base.elem.cell.mat = x.matId) ∨ ∃ y ∈ m.lines, y.mat = x.matId) {id : Int}
    (hid : id = 14 ∨ id = 38 ∨ id = 34) (hno : first ops n id = none) (minR : K) {iniT : List K} (ht : iniT.length = m.total) :
    buildLibS l minR m iniT = .ub := by
  have hub : l.prop x.matId id = .ub := by rw [prop_eq (linv_of hr) hx, hno]
  unfold buildLibS
  rw [if_neg (by simp [ht]), allOk_ub]
  · rfl
  · intro r hrm
    rcases List.mem_append.1 hrm with hm | hm
    · obtain ⟨p, -, rfl⟩ := List.mem_map.1 hm
      exact lookups_cases _ _ _ _
    · obtain ⟨y, -, rfl⟩ := List.mem_map.1 hm
      exact lookups_cases _ _ _ _
  · rw [List.mem_append]
    rcases he with ⟨p, hp, hpm⟩ | ⟨y, hy, hym⟩
    · obtain ⟨j, hj⟩ := List.getElem?_of_mem hp
      refine .inl (List.mem_map.2 ⟨(p, j), List.mem_zipIdx_iff_getElem?.2 hj, ?_⟩)
      dsimp only
      rw [hpm]
      exact lookups_ub hid hub _ _
    · refine .inr (List.mem_map.2 ⟨y, hy, ?_⟩)
      rw [hym]
      exact lookups_ub hid hub _ _

/-- **C142 fails** for copies, networks: in the copy of a database no prism model with an element has a network. -/
theorem c142_copied_refuted [LinearOrder K] (l : Lib K) {m : PrismT.PModel K} (he : m.prisms ≠ [] ∨ m.lines ≠ []) (minR : K) {iniT : List K}
    (ht : iniT.length = m.total) : buildLib l.copy minR m iniT = .ub := by
  have hub : ∀ mat t b, l.copy.lookups mat t b = .ub := fun mat t b => lookups_ub (.inl rfl) (c142_copy_refuted l mat pidK t 0).1 t b
  unfold buildLib
  rw [if_neg (by simp [ht])]
  cases hp : m.prisms with
  | cons p ps => simp [allOk, hub]
  | nil =>
    cases hl : m.lines with
    | cons y ys => simp [allOk, hub]
    | nil => rw [hp, hl] at he; simp at he

end

/-! ## examples -/

/-- copper with a second conductivity that is ignored, silicon with a diagonal tensor, and air -/
def exOps : List (MOp ℚ) :=
  [.mat "Cu", .prop "Cu" 14 (.one 400), .prop "Cu" 14 (.one 1), .prop "Cu" 38 (.one 380), .prop "Cu" 34 (.poly [[8900, 1]]), .mat "Si",
    .prop "Si" 14 (.nine fun i j => if i = j then 150 else 0), .mat "Air", .type "Air" true, .mat "Cu"]

example : (Lib.empty.run exOps).bind (fun l => .ok ([0, 1, 2].map (l.conductivity 0 300), [0, 1, 2].map (l.conductivity 1 300), l.scalar pidRho 0 2,
    l.scalar pidRho 1 2, l.fluids)) = .ok ([.ok 400, .ok 400, .ok 400], [.ok 150, .ok 0, .ok 0], .ok 8902, .ub, [2]) := by decide +kernel

theorem exGiven : ∃ l, Lib.empty.run exOps = .ok l ∧ Given exOps l 0 (fun _ _ => 400) (fun _ => 380) (evalAt [8900, 1]) := by
  refine ⟨_, rfl, "Cu", ⟨1, .materialDef, "Cu", 0, 0⟩, by decide +kernel, rfl, ⟨.one 400, rfl, .one _, fun _ _ => rfl⟩, ⟨.one 380, rfl, .one _⟩,
    .poly [[8900, 1]], rfl, .poly _ (by simp)⟩

/-- a resistivity that grows with the temperature -/
example : ∃ l, Lib.empty.run [MOp.mat "Cu", .prop "Cu" 8 (.poly [[(1 : ℚ), 2]])] = .ok l ∧
    GivenRes [MOp.mat "Cu", .prop "Cu" 8 (.poly [[(1 : ℚ), 2]])] l 0 (evalAt [1, 2]) :=
  ⟨_, rfl, "Cu", ⟨1, .materialDef, "Cu", 0, 0⟩, by decide +kernel, rfl, .poly [[1, 2]], rfl, .poly _ (by simp)⟩

/-- a model of one prism of copper -/
def exModel : PrismT.PModel ℚ where
  off := [0, 1]
  prisms := [⟨0, ⟨⟨0, none⟩, 0, 0, fun _ => none, none, none⟩, fun _ => none, none, none⟩]
  lines := []
  area := fun _ => 1
  edgeLen := fun _ _ => 1
  toSide := fun _ _ => 1
  dist := fun _ _ => 1
  height := fun _ => 1
  k := fun _ _ _ => 1
  heat := fun _ _ => 1
  rho := fun _ _ => 1
  resist := fun _ _ => 1
  topBC := none
  botBC := none
  topBlocks := []
  botBlocks := []

example : ∃ l, Lib.empty.run exOps = .ok l ∧ (∀ p ∈ exModel.prisms, Given exOps l p.elem.cell.mat (fun _ _ => 400) (fun _ => 380) (evalAt [8900, 1])) ∧
    exModel.lines = [] ∧ exModel.total = 1 := by
  obtain ⟨l, h1, h2⟩ := exGiven
  refine ⟨l, h1, fun p hp => ?_, rfl, rfl⟩
  simp only [exModel, List.mem_singleton] at hp
  subst hp
  exact h2

/-- the same as a stackup prism model -/
def exStack : PrismT.SModel ℚ where
  off := [0, 1]
  prisms := [⟨⟨0, ⟨⟨0, none⟩, 0, 0, fun _ => none, none, none⟩, fun _ => none, none, none⟩, [], []⟩]
  lines := []
  area := fun _ _ => 1
  edgeLen := fun _ _ _ => 1
  toSide := fun _ _ _ => 1
  dist := fun _ _ _ => 1
  height := fun _ => 1
  k := fun _ _ _ => 1
  heat := fun _ _ => 1
  rho := fun _ _ => 1
  resist := fun _ _ => 1
  topBC := none
  botBC := none
  topBlocks := []
  botBlocks := []

example : ∃ l, Lib.empty.run exOps = .ok l ∧ (∀ p ∈ exStack.prisms, Given exOps l p.base.elem.cell.mat (fun _ _ => 400) (fun _ => 380) (evalAt [8900, 1])) ∧
    exStack.lines = [] ∧ exStack.total = 1 := by
  obtain ⟨l, h1, h2⟩ := exGiven
  refine ⟨l, h1, fun p hp => ?_, rfl, rfl⟩
  simp only [exStack, List.mem_singleton] at hp
  subst hp
  exact h2

example : first exOps "Si" 34 = none ∧ fluidLast exOps "Air" = true ∧ fluidLast exOps "Cu" = false ∧ (exModel.prisms ≠ [] ∨ exModel.lines ≠ []) :=
  ⟨rfl, rfl, rfl, by simp [exModel]⟩

end Ecad.Mat
