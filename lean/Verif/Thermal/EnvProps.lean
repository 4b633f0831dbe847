import Verif.Thermal.EnvModel
import Verif.Thermal.StaticProps
import Verif.Thermal.LayoutResponseProps
import Verif.Thermal.PrismCourseProps
import Verif.Thermal.StackCourseProps
import Mathlib.Tactic.LinearCombination
/-!
C152: The temperature of the environment.
-/
namespace Ecad.Env
open Ecad.Thermal Ecad.GridT

/-- all temperatures greater by `d` -/
def shift {K : Type} [Add K] (d : K) (l : List K) : List K := l.map (· + d)

section
variable {K : Type} [Field K] [LinearOrder K] [IsStrictOrderedRing K]

/-! ## networks -/

theorem row_shift {net : Network K} (hr : InRange net) {x y : Nat → K} {d : K} (h : ∀ k < net.length, y k = x k + d) {i : Nat} (hi : i < net.length) :
    mulVec (gTriplets net) y i = mulVec (gTriplets net) x i + htcOf net i * d := by
  have e1 : mulVec (gTriplets net) y i = mulVec (gTriplets net) (fun k => x k - -d) i := by
    rw [mulVec_eq_entries net.length _ i _ (fun t ht => (mem_gTriplets hr ht).2), mulVec_eq_entries net.length _ i _ (fun t ht => (mem_gTriplets hr ht).2)]
    refine Finset.sum_congr rfl fun k hk => ?_
    rw [h k (Finset.mem_range.1 hk), sub_neg_eq_add]
  have e2 := const_mulVec net (-d) i hi
  rw [e1]
  rw [mulVec_eq_bil] at e2 ⊢
  rw [bil_sub, e2, mulVec_eq_bil]
  ring

theorem solves_shift {net : Network K} (hr : InRange net) {refT d : K} {x y : Nat → K} (h : ∀ k < net.length, y k = x k + d) (hx : Solves net refT x) :
    Solves net (refT + d) y := by
  rw [solves_iff] at hx ⊢
  intro i hi
  rw [row_shift hr h hi, hx i hi]
  ring

theorem solves_plus {net : Network K} {refT d : K} {x : Nat → K} (hx : Solves net refT x) : Solves net (refT + d) fun k => x k + d := by
  rw [solves_iff] at hx ⊢
  intro i hi
  have e2 := const_mulVec net (-d) i hi
  have e3 := hx i hi
  rw [mulVec_eq_bil] at e2 e3
  rw [show (fun k => x k + d) = fun k => x k - -d from funext fun k => by ring, mulVec_eq_bil, bil_sub, e2, e3]
  ring

theorem deriv_shift {net : Network K} (hr : InRange net) {refT d : K} {exc x y : Nat → K} (h : ∀ k < net.length, y k = x k + d) {i : Nat} (hi : i < net.length) :
    derivative net (refT + d) exc y i = derivative net refT exc x i := by
  rw [derivative_eq, derivative_eq, row_shift hr h hi]
  ring

theorem unique {net : Network K} (hg : Grounded net) {refT : K} {x y : Nat → K} (hx : Solves net refT x) (hy : Solves net refT y) :
    ∀ i < net.length, x i = y i := fun i hi =>
  have hs : Response.Same net net := ⟨rfl, fun _ _ _ h h' => by rw [h] at h'; cases h'; rfl, fun _ => rfl⟩
  le_antisymm (Response.c126_monotone hg hs (fun _ _ => le_rfl) hx hy i hi) (Response.c126_monotone hg hs (fun _ _ => le_rfl) hy hx i hi)

/-! ## the static solver -/

omit [IsStrictOrderedRing K] in
/-- **C152, units.** For every builder, linear solver and setting: the same temperature of the environment given in kelvin instead of degrees Celsius gives
the same temperatures, in kelvin. -/
theorem c152_unit (build : List K → Res (Option (Network K))) (solve : K → Network K → List K) (total : Nat) (v limit : K) (maximum : Bool)
    (iteration fuel : Nat) (l : List K) (h : staticRun build solve total ⟨v, .celsius⟩ limit maximum iteration fuel = some (.ok (some l))) :
    staticRun build solve total ⟨v + 27315 / 100, .kelvins⟩ limit maximum iteration fuel = some (.ok (some (shift (27315 / 100) l))) := by
  unfold staticRun Static.solveStatic at h ⊢
  have e1 : (Temp.mk v TUnit.celsius).inKelvins = v + 27315 / 100 := by simp [Temp.inKelvins]
  have e2 : (Temp.mk (v + 27315 / 100 : K) TUnit.kelvins).inKelvins = v + 27315 / 100 := by simp [Temp.inKelvins]
  rw [e1] at h
  rw [e2]
  cases hl : Static.loop build (solve (v + 27315 / 100)) limit maximum fuel iteration (List.replicate total (v + 27315 / 100)) with
  | none => rw [hl] at h; cases h
  | some r =>
    rw [hl] at h
    cases r with
    | ub => simp [Res.bind] at h
    | exn => simp [Res.bind] at h
    | ok o =>
      cases o with
      | none => simp [Res.bind] at h
      | some T =>
        simp only [Option.map_some, Res.bind, beq_self_eq_true, if_true, Option.some.injEq, Res.ok.injEq] at h
        subst h
        have : ((TUnit.kelvins == TUnit.celsius) = false) := rfl
        simp only [Option.map_some, Res.bind, this, Bool.false_eq_true, if_false, shift, List.map_map]
        congr 3
        rw [List.map_congr_left (g := id), List.map_id]
        intro t _
        simp [Static.toCelsius]

/-- **C152, static.** For every builder whose network does not depend on the temperatures and every correct linear solver: an environment hotter by
`d` makes every element hotter by `d`, in either unit. -/
theorem c152_static {build : List K → Res (Option (Network K))} {solve : K → Network K → List K} {total : Nat} {net : Network K}
    (hb : ∀ T : List K, T.length = total → build T = .ok (some net)) (hn : net.length = total) (hg : Grounded net)
    (hlen : ∀ T net, (solve T net).length = net.length) (hsol : ∀ T net, Grounded net → Solves net T fun i => (solve T net)[i]?.getD 0)
    (v limit : K) (u : TUnit) (maximum : Bool) {iteration fuel : Nat} (hit : 1 ≤ iteration) (hf : iteration ≤ fuel) :
    ∃ l, l.length = total ∧ ∀ d, staticRun build solve total ⟨v + d, u⟩ limit maximum iteration fuel = some (.ok (some (shift d l))) := by
  have key : ∀ w : K, ∃ T : List K, T = solve (Temp.mk w u).inKelvins net ∧
      staticRun build solve total ⟨w, u⟩ limit maximum iteration fuel = some (.ok (some (if u = .celsius then T.map (· - 27315 / 100) else T))) := by
    intro w
    obtain ⟨T, n, t1, t2, t3, t4, t5, -⟩ := Static.c67_static_partial build (solve (Temp.mk w u).inKelvins) total (Temp.mk w u).inKelvins limit maximum
      (u == .celsius) iteration hit (fun T hT => ⟨net, hb T hT, hn⟩) (fun net => hlen _ net) fuel hf
    have hl : ∀ k ≤ n, (T k).length = total := by
      intro k
      induction k with
      | zero => intro _; rw [t1]; simp
      | succ k ih =>
        intro hk
        obtain ⟨net', r1, r2⟩ := t5 k (by omega)
        rw [hb _ (ih (by omega)), Res.ok.injEq, Option.some.injEq] at r1
        rw [r2, hlen, ← r1, hn]
    obtain ⟨net', r1, r2⟩ := t5 (n - 1) (by omega)
    rw [hb _ (hl _ (by omega)), Res.ok.injEq, Option.some.injEq] at r1
    rw [Nat.sub_add_cancel t2, ← r1] at r2
    refine ⟨T n, r2, ?_⟩
    unfold staticRun
    rw [t4]
    congr 3
    cases u <;> rfl
  have hk : ∀ d, (Temp.mk (v + d) u).inKelvins = (Temp.mk v u).inKelvins + d := by
    intro d
    unfold Temp.inKelvins
    split_ifs
    · rfl
    · simp only; ring
  have hs : ∀ d, solve (Temp.mk (v + d) u).inKelvins net = shift d (solve (Temp.mk v u).inKelvins net) := by
    intro d
    have h1 := solves_shift hg.inRange (d := d) (fun _ _ => rfl) (hsol (Temp.mk v u).inKelvins net hg)
    rw [← hk d] at h1
    have h2 := unique hg (hsol (Temp.mk (v + d) u).inKelvins net hg) h1
    apply List.ext_getElem?
    intro i
    unfold shift
    rw [List.getElem?_map]
    by_cases hi : i < net.length
    · have a1 : i < (solve (Temp.mk (v + d) u).inKelvins net).length := by rw [hlen]; exact hi
      have a2 : i < (solve (Temp.mk v u).inKelvins net).length := by rw [hlen]; exact hi
      have h3 := h2 i hi
      simp only [List.getElem?_eq_getElem a1, List.getElem?_eq_getElem a2, Option.getD_some, Option.map_some, Option.some.injEq] at h3 ⊢
      exact h3
    · rw [List.getElem?_eq_none (by rw [hlen]; omega), List.getElem?_eq_none (by rw [hlen]; omega)]
      rfl
  refine ⟨if u = .celsius then (solve (Temp.mk v u).inKelvins net).map (· - 27315 / 100) else solve (Temp.mk v u).inKelvins net, ?_, fun d => ?_⟩
  · split_ifs <;> simp [hlen, hn]
  · obtain ⟨T, h1, h2⟩ := key (v + d)
    rw [h2, h1, hs d]
    congr 3
    split_ifs
    · unfold shift
      rw [List.map_map, List.map_map]
      apply List.map_congr_left
      intro t _
      simp only [Function.comp]
      ring
    · rfl

end

/-! ## prism models -/

section
open Ecad.PrismT

/-- nothing in a prism model depends on temperature: conductivities, heat capacities, densities, resistivities and powers -/
structure Fixed (m : PModel ℚ) : Prop where
  k : ∀ a T T', m.k a T = m.k a T'
  heat : ∀ a T T', m.heat a T = m.heat a T'
  rho : ∀ a T T', m.rho a T = m.rho a T'
  resist : ∀ a T T', m.resist a T = m.resist a T'
  power : ∀ p ∈ m.prisms, ∀ w ∈ p.elem.cell.power, ∀ T T', w.2.2 T = w.2.2 T'

/-- the same for stackup models -/
structure FixedS (m : SModel ℚ) : Prop where
  k : ∀ a T T', m.k a T = m.k a T'
  heat : ∀ a T T', m.heat a T = m.heat a T'
  rho : ∀ a T T', m.rho a T = m.rho a T'
  resist : ∀ a T T', m.resist a T = m.resist a T'
  power : ∀ p ∈ m.prisms, ∀ w ∈ p.base.elem.cell.power, ∀ T T', w.2.2 T = w.2.2 T'

theorem both_get {a b : List ℚ} (h : a.length = b.length) (i : Nat) : (a[i]? = none ∧ b[i]? = none) ∨ ∃ x y, a[i]? = some x ∧ b[i]? = some y := by
  by_cases hi : i < a.length
  · exact .inr ⟨_, _, List.getElem?_eq_getElem hi, List.getElem?_eq_getElem (h ▸ hi)⟩
  · exact .inl ⟨List.getElem?_eq_none (by omega), List.getElem?_eq_none (by omega)⟩

theorem link_fixed (m : PModel ℚ) {a b : List ℚ} (h : a.length = b.length) (i : Nat) (n : Option Nat) {r r' : Prism ℚ → ℚ → ℚ}
    (hr : ∀ q t t', r q t = r' q t') : m.link a i n r = m.link b i n r' := by
  unfold PModel.link
  cases n with
  | none => rfl
  | some n =>
    simp only
    rcases both_get h n with ⟨h1, h2⟩ | ⟨x, y, h1, h2⟩
    · rw [h1, h2]; cases m.prisms[n]? <;> rfl
    · rw [h1, h2]
      cases m.prisms[n]? with
      | none => rfl
      | some q => simp only [hr q x y]

theorem linkS_fixed (m : SModel ℚ) {a b : List ℚ} (h : a.length = b.length) (i : Nat) (n : Option Nat) {r r' : SPrism ℚ → ℚ → ℚ}
    (hr : ∀ q t t', r q t = r' q t') : m.link a i n r = m.link b i n r' := by
  unfold SModel.link
  cases n with
  | none => rfl
  | some n =>
    simp only
    rcases both_get h n with ⟨h1, h2⟩ | ⟨x, y, h1, h2⟩
    · rw [h1, h2]; cases m.prisms[n]? <;> rfl
    · rw [h1, h2]
      cases m.prisms[n]? with
      | none => rfl
      | some q => simp only [hr q x y]

theorem power_fixed {p : Prism ℚ} (h : ∀ w ∈ p.elem.cell.power, ∀ T T', w.2.2 T = w.2.2 T') (i : Nat) (t t' : ℚ) : powerOps i p t = powerOps i p t' := by
  unfold powerOps
  cases hp : p.elem.cell.power with
  | none => rfl
  | some w =>
    obtain ⟨r, s, l⟩ := w
    simp only
    rw [show l t = l t' from h _ hp t t']

theorem line_fixed {m : PModel ℚ} (hk : ∀ a T T', m.k a T = m.k a T') (hh : ∀ a T T', m.heat a T = m.heat a T') (hr : ∀ a T T', m.rho a T = m.rho a T')
    (hj : ∀ a T T', m.resist a T = m.resist a T') {a b : List ℚ} (h : a.length = b.length) (l : Line ℚ) : m.lineOps a l = m.lineOps b l := by
  unfold PModel.lineOps
  rcases both_get h l.id with ⟨h1, h2⟩ | ⟨x, y, h1, h2⟩
  · rw [h1, h2]
  · rw [h1, h2]
    have e1 : m.joule l x = m.joule l y := by unfold PModel.joule; rw [hj _ x y]
    have e2 : ∀ a, m.aveK a x = m.aveK a y := fun a => by unfold PModel.aveK; rw [hk a x y]
    have e3 : m.lineR l x = m.lineR l y := by
      funext nb
      unfold PModel.lineR
      simp only [e2]
    simp only [e1, e3, hh _ x y, hr _ x y]

/-- the network of such a model is the same at all temperatures -/
theorem build_fixed {m : PModel ℚ} (hm : Fixed m) (minR : ℚ) {a b : List ℚ} (h : a.length = b.length) : m.build minR a = m.build minR b := by
  have he : m.elemOps a = m.elemOps b := by
    funext i
    unfold PModel.elemOps
    rcases both_get h i with ⟨h1, h2⟩ | ⟨x, y, h1, h2⟩
    · rw [h1, h2]; cases m.prisms[i]? <;> rfl
    · rw [h1, h2]
      cases hp : m.prisms[i]? with
      | none => rfl
      | some p =>
        have s1 : ∀ e : Fin 3, ∀ q : Prism ℚ, ∀ t t', m.sideR p q e x t = m.sideR p q e y t' := by
          intro e q t t'
          unfold PModel.sideR
          simp only [hm.k _ x y, hm.k _ t t']
        have s2 : ∀ q : Prism ℚ, ∀ t t', m.vertR p q x t = m.vertR p q y t' := by
          intro q t t'
          unfold PModel.vertR
          simp only [hm.k _ x y, hm.k _ t t']
        simp only [power_fixed (hm.power p (List.mem_of_getElem? hp)) i x y, hm.heat _ x y, hm.rho _ x y, link_fixed m h i _ (s1 _), link_fixed m h i _ s2]
  have ho : m.ops a = m.ops b := by
    unfold PModel.ops PModel.rangeOps
    rw [he, show m.lineOps a = m.lineOps b from funext (line_fixed hm.k hm.heat hm.rho hm.resist h)]
  unfold PModel.build
  rw [ho, h]

theorem buildS_fixed {m : SModel ℚ} (hm : FixedS m) (minR : ℚ) {a b : List ℚ} (h : a.length = b.length) : m.build minR a = m.build minR b := by
  have he : m.elemOps a = m.elemOps b := by
    funext i
    unfold SModel.elemOps
    rcases both_get h i with ⟨h1, h2⟩ | ⟨x, y, h1, h2⟩
    · rw [h1, h2]; cases m.prisms[i]? <;> rfl
    · rw [h1, h2]
      cases hp : m.prisms[i]? with
      | none => rfl
      | some p =>
        have s1 : ∀ e : Fin 3, ∀ q : SPrism ℚ, ∀ t t', m.sideR p q e x t = m.sideR p q e y t' := by
          intro e q t t'
          unfold SModel.sideR
          simp only [hm.k _ x y, hm.k _ t t']
        have s2 : m.contactOp a i p x = m.contactOp b i p y := by
          funext c
          unfold SModel.contactOp
          rcases both_get h c.1 with ⟨g1, g2⟩ | ⟨t, t', g1, g2⟩
          · rw [g1, g2]; cases m.prisms[c.1]? <;> rfl
          · rw [g1, g2]
            have : ∀ q, m.contactR p q c.2 x t = m.contactR p q c.2 y t' := by
              intro q
              unfold SModel.contactR
              simp only [hm.k _ x y, hm.k _ t t']
            cases m.prisms[c.1]? <;> simp only [this]
        simp only [power_fixed (hm.power p (List.mem_of_getElem? hp)) i x y, SModel.restOps, SModel.topOps, SModel.botOps, SModel.contactsOps, s2,
          hm.heat _ x y, hm.rho _ x y, linkS_fixed m h i _ (s1 _)]
  have ho : m.ops a = m.ops b := by
    unfold SModel.ops SModel.rangeOps
    rw [he, show m.wires.lineOps a = m.wires.lineOps b from funext (line_fixed (m := m.wires) hm.k hm.heat hm.rho hm.resist h)]
  unfold SModel.build
  rw [ho, h]

/-- **C152, prism models.** Nothing depends on temperature: an environment hotter by `d` makes every element hotter by `d`. -/
theorem c152_prism {m : PModel ℚ} {mesh : Mesh} {layers : Nat} {info : Nat → Nat → Option (Cell ℚ)} {ws : List (Wire ℚ)} (hx : Extracted m mesh layers info ws)
    (hn : Mutual mesh) (hc : m.Cooled) (hm : Fixed m) {minR : ℚ} (h0 : 0 < minR) {solve : ℚ → Network ℚ → List ℚ}
    (hlen : ∀ T net, (solve T net).length = net.length) (hsol : ∀ T net, Grounded net → Solves net T fun i => (solve T net)[i]?.getD 0)
    (v limit : ℚ) (u : TUnit) (maximum : Bool) {iteration fuel : Nat} (hit : 1 ≤ iteration) (hf : iteration ≤ fuel) :
    ∃ l, l.length = m.total ∧ ∀ d, staticRun (m.build minR) solve m.total ⟨v + d, u⟩ limit maximum iteration fuel = some (.ok (some (shift d l))) := by
  obtain ⟨net, hb, hg, -⟩ := c64_solvable hx hn hc h0 (iniT := List.replicate m.total 0) (by simp) 0
  obtain ⟨net', hb', hl⟩ := c63_builds hx minR (iniT := List.replicate m.total 0) (by simp)
  rw [hb, Res.ok.injEq, Option.some.injEq] at hb'
  subst hb'
  exact c152_static (fun T hT => by rw [build_fixed hm minR (b := List.replicate m.total 0) (by simp [hT]), hb]) hl hg hlen hsol v limit u maximum hit hf

/-- the same for stackup models -/
theorem c152_stack {m : SModel ℚ} {g : Tris ℚ} {s : ℚ} {meshes : List Mesh} {info : Nat → Nat → Option (Cell ℚ)} {ws : List (Wire ℚ)}
    (hx : FromMeshes m g meshes info ws) (hgeo : g.Geometry m s) (hn : ∀ mesh ∈ meshes, Mutual mesh) (hc : m.Cooled) (hm : FixedS m) {minR : ℚ} (h0 : 0 < minR)
    {solve : ℚ → Network ℚ → List ℚ} (hlen : ∀ T net, (solve T net).length = net.length)
    (hsol : ∀ T net, Grounded net → Solves net T fun i => (solve T net)[i]?.getD 0)
    (v limit : ℚ) (u : TUnit) (maximum : Bool) {iteration fuel : Nat} (hit : 1 ≤ iteration) (hf : iteration ≤ fuel) :
    ∃ l, l.length = m.total ∧ ∀ d, staticRun (m.build minR) solve m.total ⟨v + d, u⟩ limit maximum iteration fuel = some (.ok (some (shift d l))) := by
  obtain ⟨net, hb, hg, -⟩ := c78_solvable hx hgeo hn hc h0 (iniT := List.replicate m.total 0) (by simp) 0
  obtain ⟨net', hb', hl⟩ := c78_builds hx minR (iniT := List.replicate m.total 0) (by simp)
  rw [hb, Res.ok.injEq, Option.some.injEq] at hb'
  subst hb'
  exact c152_static (fun T hT => by rw [buildS_fixed hm minR (b := List.replicate m.total 0) (by simp [hT]), hb]) hl hg hlen hsol v limit u maximum hit hf

end

/-! ## layouts on a grid -/

/-- **C152, grid models.** The loss powers of the components of a layout do not depend on temperature: an environment hotter by `d` makes every cell hotter
by `d`. -/
theorem c152_grid {S : Type} {a : GridExt.In S} {user data : ℚ} (dist : Int × Int → Int × Int → ℚ) (pi : ℚ) (part : L2C.Box → S → ℚ)
    (h : Balance.Proper a user data) {w : GridPower.Comp ℚ → ℚ} (hw : LayoutResponse.Constant a.comps w) {ip : List (ℚ × ℚ) → ℚ → Res ℚ} (hip : GridT.Pchip ip)
    {minR : ℚ} (h0 : 0 < minR) {solve : ℚ → Network ℚ → List ℚ} (hlen : ∀ T net, (solve T net).length = net.length)
    (hsol : ∀ T net, Grounded net → Solves net T fun i => (solve T net)[i]?.getD 0)
    (v limit : ℚ) (u : TUnit) (maximum : Bool) {iteration fuel : Nat} (hit : 1 ≤ iteration) (hf : iteration ≤ fuel) :
    ∃ m l, GridExt.extract dist pi part a = .ok m ∧ l.length = LayoutResponse.cellCount a ∧
      ∀ d, staticRun (m.build minR ip) solve m.total ⟨v + d, u⟩ limit maximum iteration fuel = some (.ok (some (shift d l))) := by
  have key : ∀ w : ℚ, _ := fun w => LayoutResponse.c134_static dist pi part h hip h0 (Temp.mk w u).inKelvins limit maximum (u == .celsius) iteration hit
    (solve (Temp.mk w u).inKelvins) (fun net => hlen _ net) (fun net hg => hsol _ net hg) fuel hf
  obtain ⟨m, l, e1, e2, e3, e4⟩ := key v
  refine ⟨m, l, e1, e3, fun d => ?_⟩
  obtain ⟨m', r, f1, f2, f3, f4⟩ := key (v + d)
  rw [e1, Res.ok.injEq] at f1
  subst f1
  unfold staticRun
  rw [f2]
  congr 3
  have hk : (Temp.mk (v + d) u).inKelvins = (Temp.mk v u).inKelvins + d := by
    unfold Temp.inKelvins
    split_ifs
    · rfl
    · simp only; ring
  have e5 : LayoutResponse.Steady dist pi part minR ip ((Temp.mk v u).inKelvins + d) a fun k =>
      (l[k]?.getD 0 + if (u == .celsius) then (27315 / 100 : ℚ) else 0) + d := by
    obtain ⟨m1, T, net, s1, s2, s3⟩ := e4
    exact ⟨m1, T, net, s1, s2, solves_plus s3⟩
  rw [← hk] at e5
  have hu := LayoutResponse.c134_unique h hw hip h0 f4 e5
  apply List.ext_getElem?
  intro i
  unfold shift
  rw [List.getElem?_map]
  by_cases hi : i < LayoutResponse.cellCount a
  · have h3 := hu i hi
    rw [List.getElem?_eq_getElem (by omega), List.getElem?_eq_getElem (by omega)] at h3 ⊢
    simp only [Option.getD_some, Option.map_some, Option.some.injEq] at h3 ⊢
    linarith
  · rw [List.getElem?_eq_none (by omega), List.getElem?_eq_none (by omega)]
    rfl

end Ecad.Env
