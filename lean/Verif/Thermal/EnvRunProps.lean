import Verif.Thermal.EnvProps
import Verif.Thermal.ConvergePrismProps
import Verif.Design.ExtractModel
/-!
C152, transient analyses, the temperature of the environment in the settings of the extraction, and what happens if properties depend on temperature.
-/
namespace Ecad.Env
open Ecad.Thermal Ecad.GridT

/-! ## the exact course -/

/-- **C152, course.** Temperatures that follow the derivative of the transient solver, from the temperature of the environment: in an environment hotter by `d`
the same temperatures plus `d` do so. -/
theorem c152_course {net : Network ℚ} (hg : Grounded net) {envT : ℚ} (d : ℚ) {exc x : ℝ → Nat → ℝ} (hx : Course.Warms net envT exc x) :
    Course.Warms net (envT + d) exc fun t k => x t k + d := by
  obtain ⟨h1, h2⟩ := hx
  refine ⟨⟨fun i hi => (h1.cont i hi).add continuousOn_const, fun t ht i hi => ?_⟩, fun k hk => ?_⟩
  · have h3 := (h1.deriv t ht i hi).add_const (d : ℝ)
    have h4 := deriv_shift (Course.real_grounded hg).inRange (refT := (envT : ℝ)) (exc := exc t) (d := (d : ℝ)) (x := x t) (y := fun k => x t k + d) (fun _ _ => rfl) hi
    push_cast
    rw [h4]
    exact h3
  · show x 0 k + (d : ℝ) = _
    rw [h2 k hk]
    push_cast
    rfl

/-- **C152, course of prism models.** Nothing depends on temperature: the course in an environment hotter by `d` is the course plus `d`. -/
theorem c152_prism_course {m : PrismT.PModel ℚ} {mesh : PrismT.Mesh} {layers : Nat} {info : Nat → Nat → Option (PrismT.Cell ℚ)} {ws : List (PrismT.Wire ℚ)}
    (hx : PrismT.Extracted m mesh layers info ws) (hn : PrismT.Mutual mesh) (hc : m.Cooled) (hm : Fixed m) {minR : ℚ} (h0 : 0 < minR) {envT : ℚ} (d : ℚ)
    {exc x : ℝ → Nat → ℝ} (h : PrismCourse.Course minR envT exc m x) : PrismCourse.Course minR (envT + d) exc m fun t k => x t k + d := by
  obtain ⟨net, hb, hw⟩ := h
  obtain ⟨net', hb', hg, -⟩ := PrismT.c64_solvable hx hn hc h0 (iniT := List.replicate m.total envT) (by simp) 0
  rw [hb, Res.ok.injEq, Option.some.injEq] at hb'
  subst hb'
  exact ⟨net, by rw [build_fixed hm minR (b := List.replicate m.total envT) (by simp), hb], c152_course hg d hw⟩

/-- the same for stackup models -/
theorem c152_stack_course {m : PrismT.SModel ℚ} {g : PrismT.Tris ℚ} {s : ℚ} {meshes : List PrismT.Mesh} {info : Nat → Nat → Option (PrismT.Cell ℚ)}
    {ws : List (PrismT.Wire ℚ)} (hx : PrismT.FromMeshes m g meshes info ws) (hgeo : g.Geometry m s) (hn : ∀ mesh ∈ meshes, PrismT.Mutual mesh) (hc : m.Cooled)
    (hm : FixedS m) {minR : ℚ} (h0 : 0 < minR) {envT : ℚ} (d : ℚ) {exc x : ℝ → Nat → ℝ} (h : StackCourse.Course minR envT exc m x) :
    StackCourse.Course minR (envT + d) exc m fun t k => x t k + d := by
  obtain ⟨net, hb, hw⟩ := h
  obtain ⟨net', hb', hg, -⟩ := PrismT.c78_solvable hx hgeo hn hc h0 (iniT := List.replicate m.total envT) (by simp) 0
  rw [hb, Res.ok.injEq, Option.some.injEq] at hb'
  subst hb'
  exact ⟨net, by rw [buildS_fixed hm minR (b := List.replicate m.total envT) (by simp), hb], c152_course hg d hw⟩

/-! ## fixed steps -/

theorem midStep_shift {net : Network ℚ} (hr : InRange net) {refT d : ℚ} {exc : ℚ → Nat → ℚ} (t dt : ℚ) {x y : Nat → ℚ} (h : ∀ k < net.length, y k = x k + d) :
    ∀ i < net.length, Mid.midStep (Mid.rhs net (refT + d) exc) t dt y i = Mid.midStep (Mid.rhs net refT exc) t dt x i + d := by
  have s1 : ∀ k < net.length, y k + dt / 2 * Mid.rhs net (refT + d) exc t y k = (x k + dt / 2 * Mid.rhs net refT exc t x k) + d := by
    intro k hk
    unfold Mid.rhs
    rw [deriv_shift hr h hk, h k hk]
    ring
  have s2 : ∀ k < net.length, y k + 2 * (dt / 2) * Mid.rhs net (refT + d) exc (t + dt / 2) (fun k => y k + dt / 2 * Mid.rhs net (refT + d) exc t y k) k =
      (x k + 2 * (dt / 2) * Mid.rhs net refT exc (t + dt / 2) (fun k => x k + dt / 2 * Mid.rhs net refT exc t x k) k) + d := by
    intro k hk
    rw [show Mid.rhs net (refT + d) exc (t + dt / 2) (fun k => y k + dt / 2 * Mid.rhs net (refT + d) exc t y k) k =
      Mid.rhs net refT exc (t + dt / 2) (fun k => x k + dt / 2 * Mid.rhs net refT exc t x k) k from deriv_shift hr s1 hk, h k hk]
    ring
  intro i hi
  unfold Mid.midStep
  simp only
  have s3 : Mid.rhs net (refT + d) exc (t + dt / 2 + dt / 2)
      (fun k => y k + 2 * (dt / 2) * Mid.rhs net (refT + d) exc (t + dt / 2) (fun k => y k + dt / 2 * Mid.rhs net (refT + d) exc t y k) k) i =
      Mid.rhs net refT exc (t + dt / 2 + dt / 2)
        (fun k => x k + 2 * (dt / 2) * Mid.rhs net refT exc (t + dt / 2) (fun k => x k + dt / 2 * Mid.rhs net refT exc t x k) k) i := deriv_shift hr s2 hi
  rw [s1 i hi, s2 i hi, s3]
  ring

theorem stepBy_shift {net : Network ℚ} (hr : InRange net) {refT d : ℚ} {exc : ℚ → Nat → ℚ} (t dt : ℚ) {x : Trans.State} (hx : x.length = net.length) :
    Mid.stepBy (refT + d) exc net t dt (shift d x) = shift d (Mid.stepBy refT exc net t dt x) := by
  unfold Mid.stepBy
  have hl : (shift d x).length = x.length := by simp [shift]
  rw [hl]
  conv_rhs => rw [shift, List.map_map]
  apply List.map_congr_left
  intro i hi
  rw [List.mem_range, hx] at hi
  refine midStep_shift hr t dt (fun k hk => ?_) i hi
  have hk' : k < x.length := by omega
  simp [shift, List.getD_eq_getElem?_getD, List.getElem?_map, List.getElem?_eq_getElem hk']

/-- samples with temperatures greater by `d` -/
def later (d : ℚ) (s : List Trans.Sample) : List Trans.Sample := s.map fun e => (e.1, shift d e.2)

/-- the state of the loop with temperatures greater by `d` -/
def moved (d : ℚ) (st : Trans.St) : Trans.St := { st with temps := shift d st.temps, samples := later d st.samples }

theorem const_shift {n : Nat} {d : ℚ} {f f' : ℚ → Trans.State → Trans.State} (hf : ∀ t x, x.length = n → f' t (shift d x) = shift d (f t x))
    (hl : ∀ t x, (f t x).length = x.length) (t0 dt : ℚ) (j : Nat) : ∀ (k : Nat) (x : Trans.State), x.length = n →
    Trans.constFrom f' t0 dt k (shift d x) j = (Trans.constFrom f t0 dt k x j).map fun o => (o.1, shift d o.2) := by
  induction j with
  | zero => intro k x _; rfl
  | succ j ih =>
    intro k x hx
    unfold Trans.constFrom
    rw [hf _ x hx, ih _ _ (by rw [hl, hx])]
    rfl

theorem probe_shift (d : ℚ) (x : Trans.State) (ps : List Nat) : Trans.probe (shift d x) ps = (Trans.probe x ps).bind fun v => .ok (shift d v) := by
  induction ps with
  | nil => rfl
  | cons p ps ih =>
    unfold Trans.probe
    rw [shift, List.getElem?_map]
    cases x[p]? with
    | none => rfl
    | some v =>
      simp only [Option.map_some]
      rw [show List.map (fun t => t + d) x = shift d x from rfl, ih]
      cases Trans.probe x ps <;> rfl

/-- a sampler with temperatures greater by `d` -/
def movedS (d : ℚ) (s : Trans.Sampler) : Trans.Sampler := { s with samples := later d s.samples }

theorem observe_shift (d : ℚ) (ps : List Nat) (s : Trans.Sampler) (o : Trans.Obs) :
    (movedS d s).observe (Trans.probe · ps) (o.1, shift d o.2) = (s.observe (Trans.probe · ps) o).bind fun s => .ok (movedS d s) := by
  unfold Trans.Sampler.observe movedS
  simp only
  split_ifs
  · rw [probe_shift]
    cases Trans.probe o.2 ps with
    | ok v => simp [Res.bind, later]
    | ub => rfl
    | exn => rfl
  · rfl
  · rfl

theorem run_shift (d : ℚ) (ps : List Nat) (os : List Trans.Obs) : ∀ s : Trans.Sampler,
    Trans.Sampler.run (Trans.probe · ps) (movedS d s) (os.map fun o => (o.1, shift d o.2)) =
      (Trans.Sampler.run (Trans.probe · ps) s os).bind fun s => .ok (movedS d s) := by
  induction os with
  | nil => intro s; rfl
  | cons o os ih =>
    intro s
    rw [List.map_cons, Trans.Sampler.run, Trans.Sampler.run, observe_shift]
    cases s.observe (Trans.probe · ps) o with
    | ok s' => exact ih s'
    | ub => rfl
    | exn => rfl

theorem new_shift (d : ℚ) (set set' : Trans.Settings) (h1 : set'.interval = set.interval) (h2 : set'.duration = set.duration) (h3 : set'.window = set.window)
    (ss : List Trans.Sample) : Trans.Sampler.new set' (later d ss) = (Trans.Sampler.new set ss).bind fun s => .ok (movedS d s) := by
  unfold Trans.Sampler.new
  rw [h1, h2, h3]
  split_ifs
  · rfl
  · simp only [Res.bind, movedS, later]
    congr 2
    rw [List.getLast?_map, Option.map_map]
    rfl

/-- one integration -/
theorem piece_shift {build : Trans.State → Option (Network ℚ)} {net : Network ℚ} {total : Nat} (hb : ∀ T : List ℚ, T.length = total → build T = some net)
    (hr : InRange net) (hn : net.length = total) (exc : ℚ → Nat → ℚ) (ad : Network ℚ → ℚ → ℚ → ℚ → Trans.State → List Trans.Obs) (refT d : ℚ)
    (set : Trans.Settings) (ha : set.adaptive = false) (c : Bool) (dur dt : ℚ) (st : Trans.St) (hs : st.temps.length = total) :
    Trans.piece build (fixedSteps exc ad (refT + d)) { set with envT := refT + d, celsius := c } dur dt (moved d st) =
      (Trans.piece build (fixedSteps exc ad refT) { set with envT := refT, celsius := c } dur dt st).bind fun st => .ok (moved d st) := by
  have hl : (shift d st.temps).length = total := by simp [shift, hs]
  unfold Trans.piece
  simp only [moved]
  rw [hb _ hl, hb _ hs]
  simp only
  rw [new_shift d { set with envT := refT, celsius := c } { set with envT := refT + d, celsius := c } rfl rfl rfl]
  cases Trans.Sampler.new { set with envT := refT, celsius := c } st.samples with
  | ub => rfl
  | exn => rfl
  | ok smp =>
    simp only [Res.bind_ok]
    have z1 : (fixedSteps exc ad (refT + d)).size net = total := hn
    have z2 : (fixedSteps exc ad refT).size net = total := hn
    simp only [z1, z2, hl, hs, ne_eq, not_true_eq_false, if_false]
    have ho : Trans.observed (fixedSteps exc ad (refT + d)) set.adaptive net st.time dur dt (shift d st.temps) =
        (Trans.observed (fixedSteps exc ad refT) set.adaptive net st.time dur dt st.temps).map fun o => (o.1, shift d o.2) := by
      unfold Trans.observed
      rw [ha]
      simp only [Bool.false_eq_true, if_false]
      refine const_shift (n := total) (fun t x hx => ?_) (fun t x => ?_) _ _ _ _ _ hs
      · exact stepBy_shift hr t dt (hx.trans hn.symm)
      · simp [fixedSteps, Mid.stepBy]
    rw [ho, run_shift]
    cases Trans.Sampler.run (Trans.probe · set.probs) smp (Trans.observed (fixedSteps exc ad refT) set.adaptive net st.time dur dt st.temps) with
    | ub => rfl
    | exn => rfl
    | ok s =>
      simp only [Res.bind_ok, List.length_map]
      congr 1
      rw [List.getLast?_map, Option.map_map]
      cases (Trans.observed (fixedSteps exc ad refT) set.adaptive net st.time dur dt st.temps).getLast? <;> rfl

theorem piece_length {build : Trans.State → Option (Network ℚ)} {exc : ℚ → Nat → ℚ} {ad : Network ℚ → ℚ → ℚ → ℚ → Trans.State → List Trans.Obs} {refT : ℚ}
    {set : Trans.Settings} (ha : set.adaptive = false) {dur dt : ℚ} {st st' : Trans.St} (h : Trans.piece build (fixedSteps exc ad refT) set dur dt st = .ok st') :
    st'.temps.length = st.temps.length := by
  have hc : ∀ (f : ℚ → Trans.State → Trans.State) (_ : ∀ t x, (f t x).length = x.length) (t0 dt : ℚ) (j k : Nat) (x : Trans.State),
      ∀ o ∈ Trans.constFrom f t0 dt k x j, o.2.length = x.length := by
    intro f hf t0 dt j
    induction j with
    | zero => intro k x o ho; rw [Trans.constFrom, List.mem_singleton] at ho; rw [ho]
    | succ j ih =>
      intro k x o ho
      rw [Trans.constFrom, List.mem_cons] at ho
      rcases ho with ho | ho
      · rw [ho]
      · rw [ih _ _ o ho, hf]
  unfold Trans.piece at h
  cases hb : build st.temps with
  | none => simp [hb] at h
  | some net =>
    simp only [hb] at h
    cases hs : Trans.Sampler.new set st.samples with
    | ub => simp [hs, Res.bind] at h
    | exn => simp [hs, Res.bind] at h
    | ok smp =>
      rw [hs] at h
      simp only [Res.bind_ok] at h
      split_ifs at h with hz
      · injection h with h; rw [← h]
      · generalize ho : Trans.observed (fixedSteps exc ad refT) set.adaptive net st.time dur dt st.temps = os at h
        cases hr : Trans.Sampler.run (Trans.probe · set.probs) smp os with
        | ub => simp [hr, Res.bind] at h
        | exn => simp [hr, Res.bind] at h
        | ok s =>
          rw [hr] at h
          simp only [Res.bind_ok, Res.ok.injEq] at h
          rw [← h]
          simp only
          cases hl : os.getLast? with
          | none => rfl
          | some o =>
            have hm : o ∈ os := List.mem_of_getLast? hl
            rw [← ho] at hm
            unfold Trans.observed at hm
            rw [ha] at hm
            simp only [Bool.false_eq_true, if_false] at hm
            exact hc _ (fun t x => by simp [fixedSteps, Mid.stepBy]) _ _ _ _ _ o hm

theorem loop_shift {build : Trans.State → Option (Network ℚ)} {net : Network ℚ} {total : Nat} (hb : ∀ T : List ℚ, T.length = total → build T = some net)
    (hr : InRange net) (hn : net.length = total) (exc : ℚ → Nat → ℚ) (ad : Network ℚ → ℚ → ℚ → ℚ → Trans.State → List Trans.Obs) (refT d : ℚ)
    (set : Trans.Settings) (ha : set.adaptive = false) (c : Bool) (fuel : Nat) : ∀ st : Trans.St, st.temps.length = total →
    Trans.loop build (fixedSteps exc ad (refT + d)) { set with envT := refT + d, celsius := c } fuel (moved d st) =
      (Trans.loop build (fixedSteps exc ad refT) { set with envT := refT, celsius := c } fuel st).map fun r => r.bind fun st => .ok (moved d st) := by
  induction fuel with
  | zero =>
    intro st _
    unfold Trans.loop
    have ht : (moved d st).time = st.time := rfl
    simp only [ht]
    by_cases hlt : st.time < set.duration
    · rw [if_pos hlt, if_pos hlt]; rfl
    · rw [if_neg hlt, if_neg hlt]; rfl
  | succ fuel ih =>
    intro st hs
    unfold Trans.loop
    have ht : (moved d st).time = st.time := rfl
    simp only [ht]
    by_cases hlt : st.time < set.duration
    · rw [if_pos hlt, if_pos hlt, piece_shift hb hr hn exc ad refT d set ha c _ _ st hs]
      cases hp : Trans.piece build (fixedSteps exc ad refT) { set with envT := refT, celsius := c } set.step set.interval st with
      | ub => rfl
      | exn => rfl
      | ok st' =>
        simp only [Res.bind_ok]
        exact ih { st' with time := st'.time + set.step } ((piece_length (set := { set with envT := refT, celsius := c }) ha hp).trans hs)
    · rw [if_neg hlt, if_neg hlt]
      rfl

theorem report_shift (d : ℚ) (c : Bool) (ss : List Trans.Sample) : ∀ r r' : ℚ × ℚ,
    ((Trans.report c (later d ss) r').bind fun o => .ok o.2) = (Trans.report c ss r).bind fun o => .ok (later d o.2) := by
  induction ss with
  | nil => intro r r'; rfl
  | cons s ss ih =>
    intro r r'
    obtain ⟨t, vs⟩ := s
    obtain ⟨lo, hi⟩ := r
    obtain ⟨lo', hi'⟩ := r'
    show ((Trans.report c ((t, shift d vs) :: later d ss) (lo', hi')).bind fun o => Res.ok o.2) = _
    have hv : (if c then (shift d vs).map Trans.celsius else shift d vs) = shift d (if c then vs.map Trans.celsius else vs) := by
      cases c
      · rfl
      · simp only [if_true, shift, List.map_map]
        apply List.map_congr_left
        intro v _
        simp only [Function.comp, Trans.celsius]
        ring
    unfold Trans.report
    simp only
    rw [hv]
    cases hw : (if c then vs.map Trans.celsius else vs) with
    | nil => rfl
    | cons v ws =>
      have := ih (min lo (ws.foldl min v), max hi (ws.foldl max v))
        (min lo' ((shift d ws).foldl min (v + d)), max hi' ((shift d ws).foldl max (v + d)))
      show ((Res.bind (Trans.report c (later d ss) _) fun r => Res.ok (r.1, (t, shift d (v :: ws)) :: r.2)).bind fun o => Res.ok o.2) = _
      revert this
      simp only [shift, List.map_cons]
      generalize Trans.report c (later d ss) _ = A
      generalize Trans.report c ss _ = B
      intro h
      cases A <;> cases B <;> simp_all [Res.bind, later, shift]

theorem finish_shift (d big : ℚ) (set set' : Trans.Settings) (hc : set'.celsius = set.celsius) (st : Trans.St) :
    ((Trans.finish big set' (moved d st)).bind fun o => .ok (o.ok, o.samples)) =
      (Trans.finish big set st).bind fun o => .ok (o.ok, later d o.samples) := by
  unfold Trans.finish
  rw [hc]
  have := report_shift d set.celsius st.samples (big, -big) (big, -big)
  revert this
  simp only [moved]
  generalize Trans.report set.celsius (later d st.samples) _ = A
  generalize Trans.report set.celsius st.samples _ = B
  intro h
  cases A <;> cases B <;> simp_all [Res.bind] <;> rfl

/-- **C152, steps.** A transient analysis with fixed steps of a network that temperatures do not change: in an environment hotter by `d` it takes a step or
not as before, and reports the same samples at the same times with all temperatures greater by `d`; whatever the power over time, the steps, the probes and the
window, and in either unit. -/
theorem c152_steps {build : Trans.State → Option (Network ℚ)} {net : Network ℚ} {total : Nat} (hb : ∀ T : List ℚ, T.length = total → build T = some net)
    (hr : InRange net) (hn : net.length = total) (exc : ℚ → Nat → ℚ) (ad : Network ℚ → ℚ → ℚ → ℚ → Trans.State → List Trans.Obs) (big v d : ℚ) (u : TUnit)
    (set : Trans.Settings) (ha : set.adaptive = false) (fuel : Nat) :
    (transRun build (fixedSteps exc ad) total big ⟨v + d, u⟩ set fuel).map (fun r => r.bind fun o => .ok (o.ok, o.samples)) =
      (transRun build (fixedSteps exc ad) total big ⟨v, u⟩ set fuel).map fun r => r.bind fun o => .ok (o.ok, o.samples.map fun e => (e.1, e.2.map (· + d))) := by
  have hk : (⟨v + d, u⟩ : Temp ℚ).inKelvins = (⟨v, u⟩ : Temp ℚ).inKelvins + d := by
    unfold Temp.inKelvins
    split_ifs
    · rfl
    · ring
  unfold transRun
  rw [hk]
  generalize (⟨v, u⟩ : Temp ℚ).inKelvins = refT
  have hi : Trans.St.init total { set with envT := refT + d, celsius := u == .celsius } = moved d (Trans.St.init total { set with envT := refT, celsius := u == .celsius }) := by
    simp [Trans.St.init, moved, shift, later]
  have hl : (Trans.St.init total { set with envT := refT, celsius := u == .celsius }).temps.length = total := by simp [Trans.St.init]
  have hf : ∀ st : Trans.St, ((Trans.finish big { set with envT := refT + d, celsius := u == .celsius } (moved d st)).bind fun o => .ok (o.ok, o.samples)) =
      (Trans.finish big { set with envT := refT, celsius := u == .celsius } st).bind fun o => .ok (o.ok, later d o.samples) := fun st => finish_shift d big _ _ rfl st
  unfold Trans.solve
  simp only
  rw [hi]
  by_cases ht : set.tempDep
  · rw [if_pos ht, if_pos ht, loop_shift hb hr hn exc ad refT d set ha _ fuel _ hl]
    generalize Trans.loop build (fixedSteps exc ad refT) _ fuel _ = r
    cases r with
    | none => rfl
    | some r =>
      cases r with
      | ub => rfl
      | exn => rfl
      | ok st => exact congrArg some (hf st)
  · rw [if_neg ht, if_neg ht, piece_shift hb hr hn exc ad refT d set ha _ _ _ _ hl]
    generalize Trans.piece build (fixedSteps exc ad refT) _ _ _ _ = r
    cases r with
    | ub => rfl
    | exn => rfl
    | ok st => exact congrArg some (hf st)

/-! ## properties that depend on temperature -/

section
open Ecad.PrismT

/-- one prism, cooled at the top, whose power is a tenth of its temperature -/
def hot : PModel ℚ where
  off := [0, 1]
  prisms := [⟨0, ⟨⟨0, some (1, 0, fun T => T / 10)⟩, 0, 0, fun _ => none, none, none⟩, fun _ => none, none, none⟩]
  lines := []
  area := fun _ => 1
  edgeLen := fun _ _ => 1
  toSide := fun _ _ => 1
  dist := fun _ _ => 1
  height := fun _ => 1
  k := fun _ _ _ => 1
  heat := fun _ _ => 1
  rho := fun _ _ => 1
  resist := fun _ _ => 1
  topBC := some ⟨.htc, some 1⟩
  botBC := none
  topBlocks := []
  botBlocks := []

theorem hot_build (v : ℚ) : ∃ s t c hf h, hot.build (1 / 1000) [v] = .ok (some [⟨s, t, c, hf, h, []⟩]) ∧ hf = v / 10 ∧ h = 1 := by
  refine ⟨_, _, _, _, _, rfl, ?_, ?_⟩
  · show (0 : ℚ) + v / 10 * 1 = _
    ring
  · show (1 : ℚ) * 1 = _
    ring

/-- **C152, refuted if properties depend on temperature.** `hot`, one round: at every temperature of the environment the result is 11/10 of it, so that in an
environment hotter by `d` the result is greater by 11/10 of `d`. -/
theorem c152_refuted {solve : ℚ → Network ℚ → List ℚ} (hlen : ∀ T net, (solve T net).length = net.length)
    (hsol : ∀ T net, Grounded net → Solves net T fun i => (solve T net)[i]?.getD 0) (v limit : ℚ) (maximum : Bool) (fuel : Nat) :
    staticRun (hot.build (1 / 1000)) solve hot.total ⟨v, .kelvins⟩ limit maximum 1 (fuel + 1) = some (.ok (some [v * 11 / 10])) := by
  obtain ⟨s, t, c, hf, h, hb, h1, h2⟩ := hot_build v
  have hg : Grounded ([⟨s, t, c, hf, h, []⟩] : Network ℚ) := by
    refine ⟨?_, fun n hn e he => ?_, fun n hn => ?_, fun i hi => ⟨i, .refl, ?_⟩⟩
    · intro i n hn e he
      match i with
      | 0 => simp at hn; subst hn; simp at he
      | i + 1 => simp at hn
    · rw [List.mem_singleton] at hn; subst hn; simp at he
    · rw [List.mem_singleton] at hn; subst hn; simp [h2]
    · have : i = 0 := by simpa using hi
      subst this
      simp [htcOf, h2]
  have h3 := (solves_iff _ _).1 (hsol v _ hg) 0 (by simp)
  have h4 : solve v [⟨s, t, c, hf, h, []⟩] = [v * 11 / 10] := by
    have h5 := hlen v [⟨s, t, c, hf, h, []⟩]
    match hs : solve v [⟨s, t, c, hf, h, []⟩], h5 with
    | [a], _ =>
      rw [hs] at h3
      simp [mulVec, gTriplets, nodeG, stamp1, hfOf, htcOf, h1, h2] at h3
      rw [h3]
      congr 1
      ring
  have hk : (⟨v, .kelvins⟩ : Temp ℚ).inKelvins = v := rfl
  unfold staticRun Static.solveStatic
  rw [hk, show List.replicate hot.total v = [v] from rfl]
  unfold Static.loop
  rw [hb]
  simp only
  rw [h4]
  have hr : ∃ r, Static.residual maximum [v * 11 / 10] [v] = .ok r := ⟨_, rfl⟩
  obtain ⟨r, hr⟩ := hr
  rw [hr]
  have hp : ¬ GridT.pred64 1 > 0 := by decide
  simp only
  rw [if_neg (fun h => hp h.2)]
  rfl

end

/-! ## the temperature of the environment in the settings of the extraction -/

section
variable {F Lay : Type} [DecidableEq F]

/-- the same settings with another temperature of the environment -/
def withEnv (e : F) : Extract.Settings F → Extract.Settings F
  | .grid b x y z f => .grid { b with envTemperature := e } x y z f
  | .prism b m g c => .prism { b with envTemperature := e } m g c

/-- **C152, not the temperature of the environment in the settings of the extraction.** Generating a model does not read it (src/extraction/thermal): a static analysis of a
layout without models gives the same, whatever it is, and the temperature in the setup of the analysis alone counts. -/
theorem c152_ignored {K : Type} [Field K] [LinearOrder K] (L : Sim.Lib K) (gen : Lay → Extract.Settings F → Option (Sim.Content K)) (l : Lay) (s : Extract.Settings F)
    (hgen : ∀ e, gen l (withEnv e s) = gen l s) (setup : Sim.Setup K) (fuel : Nat) (e : F) :
    Sim.runLayout L gen l [] (some (withEnv e s)) setup fuel = Sim.runLayout L gen l [] (some s) setup fuel := by
  have ht : (withEnv e s).modelType = s.modelType := by cases s <;> rfl
  unfold Sim.runLayout
  simp only [Extract.extract, UMap.find?_nil, ht, hgen e]
  cases gen l s with
  | none => rfl
  | some c =>
    have hf : ∀ (t : Extract.ModelType) (m : Extract.Model F (Sim.Content K)), UMap.find? (Extract.addModel [] t (some m)) t = some m := by
      intro t m
      simp [Extract.addModel, UMap.find?, UMap.erase]
    simp only [Option.map_some, hf]

/-- **C152, but it throws models away.** A model extracted for another temperature of the environment is not used again: it is generated anew, though it would
be the same. -/
theorem c152_rebuilt {C : Type} (gen : Lay → Extract.Settings F → Option C) (l : Lay) (c : Extract.Cache F C) (s : Extract.Settings F) {m : Extract.Model F C}
    (hm : UMap.find? c s.modelType = some m) {e : F} (he : m.settings = withEnv e s) (hne : e ≠ s.base.envTemperature) {x : C} (hx : gen l s = some x) :
    (Extract.extract gen l c s).2 = some ⟨s, x⟩ := by
  have hq : m.settings.eq s = false := by
    rw [he]
    cases s with
    | grid b x y z f =>
      have : ({ b with envTemperature := e } : Extract.ThermalS F).eq b = false := by
        simp [Extract.ThermalS.eq]
        exact fun h => absurd h hne
      simp [withEnv, Extract.Settings.eq, this]
    | prism b m g c =>
      have : ({ b with envTemperature := e } : Extract.ThermalS F).eq b = false := by
        simp [Extract.ThermalS.eq]
        exact fun h => absurd h hne
      simp [withEnv, Extract.Settings.eq, this]
  unfold Extract.extract
  rw [hm]
  simp only [hq, Bool.and_false, Bool.false_eq_true, if_false, hx, Option.map_some]
  simp only [Extract.addModel]
  rw [UMap.find?_append, UMap.find?_erase, if_pos rfl, UMap.find?_cons, if_pos rfl]
  rfl

end

/-! ## the hypotheses -/

/-- linear solvers as the theorems ask for -/
example : ∃ solve : ℚ → Network ℚ → List ℚ, (∀ T net, (solve T net).length = net.length) ∧
    ∀ T net, Grounded net → Solves net T fun i => (solve T net)[i]?.getD 0 := by
  classical
  refine ⟨fun T net => if hg : Grounded net then (List.range net.length).map (c30_exists hg T).choose else List.replicate net.length 0, ?_, ?_⟩
  · intro T net
    beta_reduce
    split_ifs <;> simp
  · intro T net hg
    have hx := (c30_exists hg T).choose_spec
    simp only [dif_pos hg]
    intro i hi
    rw [← hx i hi]
    rw [mulVec_eq_entries net.length _ i _ (fun t ht => (mem_gTriplets hg.inRange ht).2),
      mulVec_eq_entries net.length _ i _ (fun t ht => (mem_gTriplets hg.inRange ht).2)]
    refine Finset.sum_congr rfl fun k hk => ?_
    rw [Finset.mem_range] at hk
    simp [hk]

open Ecad.PrismT in
/-- two layers of two triangles and a bond wire (`exModel`): nothing depends on temperature -/
theorem exModel_fixed : Extracted exModel exMesh 2 exInfo [exWire] ∧ Mutual exMesh ∧ exModel.Cooled ∧ Fixed exModel := by
  refine ⟨exModel_extracted, exMesh_mutual, exModel_cooled, fun _ _ _ => rfl, fun _ _ _ => rfl, fun _ _ _ => rfl, fun _ _ _ => rfl, ?_⟩
  intro p hp w hw T T'
  obtain ⟨i, hi, rfl⟩ := List.getElem_of_mem hp
  have hl : exModel.prisms.length = 3 := by decide +kernel
  have hi' : i < 3 := by omega
  match i, hi' with
  | 0, _ => cases hw
  | 1, _ => cases hw
  | 2, _ => cases hw

open Ecad.PrismT in
/-- the same for the stackup model `exStack`, with a power of 5 -/
theorem exStack_fixed : FromMeshes exStack exTris [exMesh, exMesh] exInfoS [exWire] ∧ exTris.Geometry exStack (1 / 2) ∧ (∀ mesh ∈ [exMesh, exMesh], Mutual mesh) ∧
    exStack.Cooled ∧ FixedS exStack := by
  refine ⟨exStack_from, exStack_geometry, ?_, exStack_cooled, fun _ _ _ => rfl, fun _ _ _ => rfl, fun _ _ _ => rfl, fun _ _ _ => rfl, ?_⟩
  · intro mesh h
    simp at h
    subst h
    exact exMesh_mutual
  intro p hp w hw T T'
  obtain ⟨i, hi, rfl⟩ := List.getElem_of_mem hp
  have hl : exStack.prisms.length = 3 := by decide +kernel
  have hi' : i < 3 := by omega
  match i, hi' with
  | 0, _ => cases hw
  | 1, _ => cases hw
  | 2, _ => cases hw; rfl

/-- one node with 2 W, cooled, and two steps: at 300 K and at 310 K -/
example : transRun (fun T => if T.length = 1 then some [⟨0, none, 1, 2, 1, []⟩] else none) (fixedSteps (fun _ _ => 1) fun _ _ _ _ _ => []) 1 1000
      ⟨300, .kelvins⟩ ⟨false, false, 1, 1, 1 / 2, 1, [0], 0, false, 0⟩ 9 = some (.ok ⟨true, 616975 / 2048, 616975 / 2048, [(1, [616975 / 2048])]⟩) ∧
    transRun (fun T => if T.length = 1 then some [⟨0, none, 1, 2, 1, []⟩] else none) (fixedSteps (fun _ _ => 1) fun _ _ _ _ _ => []) 1 1000
      ⟨310, .kelvins⟩ ⟨false, false, 1, 1, 1 / 2, 1, [0], 0, false, 0⟩ 9 = some (.ok ⟨true, 637455 / 2048, 637455 / 2048, [(1, [637455 / 2048])]⟩) := by
  decide +kernel

/-- settings of an extraction -/
def exSettings (e : ℚ) : Extract.Settings ℚ :=
  .grid ⟨false, 1, "", (0, 1), (0, 1), [], [], e⟩ false false false ⟨1, "", (0, 0, 0, 0), false, (1, 1), [], ⟨1, "", false, true, false, false, []⟩⟩

/-- a generator that does not read the temperature of the environment -/
example : (∀ e, (fun (_ : Unit) (s : Extract.Settings ℚ) => some s.modelType) () (withEnv e (exSettings 25)) = some (exSettings 25).modelType) ∧
    withEnv 30 (exSettings 25) = exSettings 30 ∧ (30 : ℚ) ≠ (exSettings 25).base.envTemperature := by
  refine ⟨fun e => rfl, rfl, ?_⟩
  show (30 : ℚ) ≠ 25
  norm_num

end Ecad.Env
