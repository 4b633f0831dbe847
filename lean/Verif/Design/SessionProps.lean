import Verif.Design.SessionModel
import Verif.Design.RegistryProps
import Verif.Gds.DesignProps
/-!
C153: sessions of imports.
-/
namespace Ecad.Session
open Registry (Reg openDb)

/-! ## one import -/

/-- the files of an import are read as far as the import asks for before it makes its database -/
def Claims (T : Tools) : Job → Prop
  | .gds file _ _ => ∃ bytes db, file = some bytes ∧ Gds.readFile T.cap T.gdsFuel bytes = some (.ok (db, true))
  | .kicad _ => True
  | .xfl file => ∃ s, file = some s ∧ (XflP.read s).2 = true
  | .dmc dom dmc => ∃ pts rs, Dmc.parseDomFile T.scale dom = .ok (.ok pts) ∧ Dmc.parseDmcFile T.scale dmc = .ok (.ok rs)

/-- a GDSII file is read before the name is looked up: reading it ends and neither throws nor is undefined -/
def Reads (T : Tools) : Job → Prop
  | .gds (some bytes) _ _ => ∃ x, Gds.readFile T.cap T.gdsFuel bytes = some (.ok x)
  | _ => True

theorem count_open (r : Reg) (name : String) : UMap.count r name = (openDb r name).isSome := (UMap.find?_isSome_eq_count r name).symm

theorem create_free {r : Reg} {name : String} (h : openDb r name = none) (d : Nat) : Registry.create r name d = (r ++ [(name, d)], some d) := by
  have hc : UMap.count r name = false := by rw [count_open, h]; rfl
  have he : UMap.emplace r name d = (r ++ [(name, d)], true) := by unfold UMap.emplace; simp [hc]
  unfold Registry.create Registry.register
  rw [hc, he]
  simp only [Bool.false_eq_true, if_false]
  rw [UMap.find?_append, UMap.find?_cons, if_pos rfl, show UMap.find? r name = none from h]
  rfl

theorem create_taken {r : Reg} {name : String} {e : Nat} (h : openDb r name = some e) (d : Nat) : Registry.create r name d = (r, none) := by
  have hc : UMap.count r name = true := by rw [count_open, h]; rfl
  unfold Registry.create
  rw [hc]
  rfl

open Classical in
/-- **C153, one import.** If the name is free, what an import returns does not depend on what else is open, and the registry gets the new database if the files were read
as far as the import asks for before it makes its database. -/
theorem c153_free (T : Tools) {reg : Reg} {name : String} (h : openDb reg name = none) (d : Nat) (job : Job) :
    importJob T reg d name job = (if Claims T job then reg ++ [(name, d)] else reg, (importJob T [] d name job).2) := by
  have h0 : openDb [] name = none := rfl
  cases job with
  | gds file path map =>
    unfold importJob importGds Claims
    cases file with
    | none => simp
    | some bytes =>
      simp only [Option.some.injEq]
      cases hr : Gds.readFile T.cap T.gdsFuel bytes with
      | none =>
        rw [if_neg (by rintro ⟨b, db, rfl, h'⟩; rw [hr] at h'; cases h')]
      | some r =>
        cases r with
        | ub => rw [if_neg (by rintro ⟨b, db, rfl, h'⟩; rw [hr] at h'; cases h')]
        | exn => rw [if_neg (by rintro ⟨b, db, rfl, h'⟩; rw [hr] at h'; cases h')]
        | ok x =>
          obtain ⟨db, ok⟩ := x
          cases ok with
          | false => rw [if_neg (by rintro ⟨b, db, rfl, h'⟩; rw [hr] at h'; cases h')]; rfl
          | true =>
            rw [if_pos ⟨bytes, db, rfl, hr⟩]
            simp only [h, h0, create_free h, create_free h0]
            rfl
  | kicad file =>
    unfold importJob KiCad.createDatabase
    cases file <;> simp [create_free h, create_free h0, Claims]
  | xfl file =>
    unfold importJob importXfl Claims
    simp only [h, h0]
    cases file with
    | none => simp
    | some s =>
      cases hr : (XflP.read s).2 with
      | false => simp [hr]
      | true =>
        rw [if_pos ⟨s, rfl, hr⟩]
        simp only [create_free h, create_free h0, hr, Bool.not_true, Bool.false_eq_true, if_false]
  | dmc dom dmc =>
    unfold importJob Dmc.createDatabase Claims
    simp only [h, h0]
    obtain ⟨r1, h1⟩ : ∃ r, Dmc.parseDomFile T.scale dom = r := ⟨_, rfl⟩
    obtain ⟨r2, h2⟩ : ∃ r, Dmc.parseDmcFile T.scale dmc = r := ⟨_, rfl⟩
    cases r1 with
    | ub => simp [h1]
    | exn => simp [h1]
    | ok x =>
      cases x with
      | error e => simp [h1]
      | ok pts =>
        cases r2 with
        | ub => simp [h1, h2]
        | exn => simp [h1, h2]
        | ok y =>
          cases y with
          | error e => simp [h1, h2]
          | ok rs =>
            rw [if_pos ⟨pts, rs, h1, h2⟩]
            simp only [h1, h2, create_free h, create_free h0]

/-- **C153, names in use.** An import under the name of an open database returns null and changes nothing. -/
theorem c153_taken (T : Tools) {reg : Reg} {name : String} {e : Nat} (h : openDb reg name = some e) (d : Nat) (job : Job) (hr : Reads T job) :
    importJob T reg d name job = (reg, some (.ok none)) := by
  cases job with
  | gds file path map =>
    unfold importJob importGds
    cases file with
    | none => rfl
    | some bytes =>
      obtain ⟨x, hx⟩ := hr
      simp only [hx, h]
      split_ifs <;> rfl
  | kicad file =>
    unfold importJob KiCad.createDatabase
    simp only [create_taken h]
    rfl
  | xfl file =>
    unfold importJob importXfl
    simp only [h]
  | dmc dom dmc =>
    unfold importJob Dmc.createDatabase
    simp only [h]
    rfl

/-- whatever the files: under a name in use the registry stays as it is -/
theorem taken_reg (T : Tools) {reg : Reg} {name : String} {e : Nat} (h : openDb reg name = some e) (d : Nat) (job : Job) :
    (importJob T reg d name job).1 = reg ∧ ∀ m, (importJob T reg d name job).2 ≠ some (.ok (some m)) := by
  by_cases hr : Reads T job
  · rw [c153_taken T h d job hr]
    exact ⟨rfl, fun m hm => by cases hm⟩
  · cases job with
    | gds file path map =>
      cases file with
      | none => exact absurd trivial hr
      | some bytes =>
        unfold importJob importGds
        cases hx : Gds.readFile T.cap T.gdsFuel bytes with
        | none => exact ⟨by simp [hx], fun m hm => by simp [hx] at hm⟩
        | some r =>
          cases r with
          | ub => exact ⟨by simp [hx], fun m hm => by simp [hx] at hm⟩
          | exn => exact ⟨by simp [hx], fun m hm => by simp [hx] at hm⟩
          | ok x => exact absurd ⟨x, hx⟩ hr
    | kicad file => exact absurd trivial hr
    | xfl file => exact absurd trivial hr
    | dmc dom dmc => exact absurd trivial hr

/-- what an import returns it also registers -/
theorem made_claims (T : Tools) {name : String} {d : Nat} {job : Job} {m : Made} (h : (importJob T [] d name job).2 = some (.ok (some m))) : Claims T job := by
  cases job with
  | gds file path map =>
    unfold importJob importGds at h
    cases file with
    | none => simp at h
    | some bytes =>
      cases hx : Gds.readFile T.cap T.gdsFuel bytes with
      | none => simp [hx] at h
      | some r =>
        cases r with
        | ub => simp [hx] at h
        | exn => simp [hx] at h
        | ok x =>
          obtain ⟨db, ok⟩ := x
          cases ok with
          | false => simp [hx] at h
          | true => exact ⟨bytes, db, rfl, hx⟩
  | kicad file => trivial
  | xfl file =>
    unfold importJob importXfl at h
    cases file with
    | none => simp [openDb, UMap.find?_nil] at h
    | some s =>
      cases hr : (XflP.read s).2 with
      | false => simp [openDb, UMap.find?_nil, hr] at h
      | true => exact ⟨s, rfl, hr⟩
  | dmc dom dmc =>
    unfold importJob Dmc.createDatabase at h
    simp only [openDb, UMap.find?_nil] at h
    cases h1 : Dmc.parseDomFile T.scale dom with
    | ub => simp [h1, Res.bind] at h
    | exn => simp [h1, Res.bind] at h
    | ok x =>
      cases x with
      | error e => simp [h1, Res.bind] at h
      | ok pts =>
        cases h2 : Dmc.parseDmcFile T.scale dmc with
        | ub => simp [h1, h2, Res.bind] at h
        | exn => simp [h1, h2, Res.bind] at h
        | ok y =>
          cases y with
          | error e => simp [h1, h2, Res.bind] at h
          | ok rs => exact ⟨pts, rs, h1, h2⟩

/-- **C153, failed imports of XFL, DMC and DOM files.** If one returns null, the registry is as before. -/
theorem c153_failed_partial (T : Tools) (reg : Reg) (d : Nat) (name : String) {job : Job} (hj : (∃ f, job = .xfl f) ∨ ∃ a b, job = .dmc a b)
    (h : (importJob T reg d name job).2 = some (.ok none)) : (importJob T reg d name job).1 = reg := by
  cases ho : openDb reg name with
  | some e => exact (taken_reg T ho d job).1
  | none =>
    rw [c153_free T ho] at h ⊢
    refine if_neg fun hc => ?_
    have h0 : openDb [] name = none := rfl
    rcases hj with ⟨f, rfl⟩ | ⟨a, b, rfl⟩
    · obtain ⟨s, rfl, hs⟩ := hc
      unfold importJob importXfl XflI.create at h
      simp only [h0, hs, create_free h0, Bool.not_true, Bool.false_eq_true, if_false] at h
      split at h
      · cases hb : XflI.build T.ang T.lib T.div T.R (List.foldl XflI.handle {} (XflP.read s).1) _ _ <;> rw [hb] at h <;> simp [Res.bind] at h
      · simp [Res.bind] at h
    · obtain ⟨pts, rs, h1, h2⟩ := hc
      unfold importJob Dmc.createDatabase at h
      simp only [h0, h1, h2, create_free h0] at h
      cases hb : Dmc.board T.junk T.far name rs pts <;> rw [hb] at h <;> simp [Res.bind] at h

/-- **C153, refuted for GDSII files.** The file is read, but the layer map file that was named is not: null is returned, and the name is in use. -/
theorem c153_gds_refuted (T : Tools) {reg : Reg} {name : String} (ho : openDb reg name = none) (d : Nat) {bytes : List Gds.Byte} {db : Gds.Db}
    (hr : Gds.readFile T.cap T.gdsFuel bytes = some (.ok (db, true))) {path : String} (hp : path ≠ "") {map : Option (List Nat)} {m : Gds.LMap}
    (hm : Gds.parseMapFile {} map = .ok (m, false)) : importJob T reg d name (.gds (some bytes) path map) = (reg ++ [(name, d)], some (.ok none)) := by
  rw [c153_free T ho, if_pos ⟨bytes, db, rfl, hr⟩]
  unfold importJob importGds
  simp only [hr, show openDb [] name = none from rfl, create_free (show openDb [] name = none from rfl), Bool.not_true, Bool.false_eq_true, if_false]
  simp [Gds.importRows, hp, hm, Res.bind]

/-- **C153, refuted for KiCad files.** The file cannot be opened: null is returned, and the name is in use. -/
theorem c153_kicad_refuted (T : Tools) {reg : Reg} {name : String} (ho : openDb reg name = none) (d : Nat) :
    importJob T reg d name (.kicad none) = (reg ++ [(name, d)], some (.ok none)) := by
  rw [c153_free T ho, if_pos (show Claims T (.kicad none) from trivial)]
  unfold importJob KiCad.createDatabase
  simp [create_free (show openDb [] name = none from rfl), Res.bind]

/-- what `importGds` returns is what the import of C132 returns, for the names that are open -/
theorem c153_gds_same (T : Tools) (reg : Reg) (d : Nat) (name : String) (bytes : List Gds.Byte) (path : String) (map : Option (List Nat)) :
    (importJob T reg d name (.gds (some bytes) path map)).2 =
      (GdsD.createDatabase T.rad T.order T.cap T.gdsFuel (UMap.keys reg) name bytes path map).map fun r => r.bind fun x => .ok (x.map Made.gds) := by
  unfold importJob importGds GdsD.createDatabase
  cases hx : Gds.readFile T.cap T.gdsFuel bytes with
  | none => simp [hx]
  | some r =>
    cases r with
    | ub => simp [hx, Res.bind]
    | exn => simp [hx, Res.bind]
    | ok x =>
      obtain ⟨db, ok⟩ := x
      cases ok with
      | false => simp [hx, Res.bind, Gds.importRows]
      | true =>
        cases ho : openDb reg name with
        | some e =>
          have hm : name ∈ UMap.keys reg := by
            rw [← UMap.find?_isSome_iff]
            rw [show UMap.find? reg name = some e from ho]
            rfl
          simp [hx, Res.bind, Gds.importRows, hm, ho]
        | none =>
          have hm : name ∉ UMap.keys reg := (UMap.find?_eq_none_iff _ _).1 ho
          simp only [hx, Bool.not_true, Bool.false_eq_true, if_false, ho, create_free ho, Option.map_some, Gds.importRows, if_true, hm, List.not_mem_nil]
          generalize (if path = "" then Res.ok (some none)
            else (Gds.parseMapFile {} map).bind fun x => Res.ok (if x.2 = true then some (some x.1.layers) else none)) = r
          cases r with
          | ub => rfl
          | exn => rfl
          | ok o =>
            cases o with
            | none => rfl
            | some rows =>
              simp only [Res.bind_ok, if_true]
              cases GdsD.fill T.rad T.order db rows <;> rfl

/-- what `importXfl` returns is what the import of C131 returns -/
theorem c153_xfl_same (T : Tools) (reg : Reg) (d : Nat) (name : String) (file : Option (List Char)) :
    (importJob T reg d name (.xfl file)).2 = some ((XflI.create T.ang T.lib T.div T.R (openDb reg name).isSome file).bind fun r => .ok (r.map Made.xfl)) := by
  unfold importJob importXfl
  cases ho : openDb reg name with
  | some e => simp [XflI.create, Res.bind]
  | none =>
    cases file with
    | none => simp [XflI.create, Res.bind]
    | some s =>
      cases hr : (XflP.read s).2 with
      | false => simp [XflI.create, Res.bind, hr]
      | true => simp [create_free ho, hr]

/-! ## sessions -/

/-- the call makes a database of the name, if the name is free -/
def MakesC (T : Tools) (c : Call) (name : String) : Prop :=
  c = .create name ∨ c = .load (some name) ∨ ∃ job, c = .import_ name job ∧ Claims T job

/-- the call ends the life of the database of the name -/
def KillsC (c : Call) (name : String) : Prop := c = .remove name ∨ c = .shutDown

open Classical in
/-- the call as one of the calls of C15 -/
noncomputable def asOp (T : Tools) : Call → Registry.Op
  | .create name => .create name
  | .load a => .load a
  | .remove name => .remove name
  | .shutDown => .shutDown
  | .import_ name job => if Claims T job then .create name else .load none

theorem makes_iff (T : Tools) (c : Call) (name : String) : Registry.Makes (asOp T c) name ↔ MakesC T c name := by
  unfold Registry.Makes MakesC
  cases c with
  | create n => simp [asOp]
  | load a => simp [asOp]
  | remove n => simp [asOp]
  | shutDown => simp [asOp]
  | import_ n job =>
    by_cases h : Claims T job
    · simp [asOp, h]
    · simp [asOp, h]

theorem kills_iff (T : Tools) (c : Call) (name : String) : Registry.Kills (asOp T c) name ↔ KillsC c name := by
  unfold Registry.Kills KillsC
  cases c with
  | create n => simp [asOp]
  | load a => simp [asOp]
  | remove n => simp [asOp]
  | shutDown => simp [asOp]
  | import_ n job =>
    by_cases h : Claims T job
    · simp [asOp, h]
    · simp [asOp, h]

/-- the registry after an import -/
theorem import_reg (T : Tools) (reg : Reg) (d : Nat) (name : String) (job : Job) :
    (importJob T reg d name job).1 = (Registry.step reg d (asOp T (.import_ name job))).1 := by
  cases ho : openDb reg name with
  | some e =>
    rw [(taken_reg T ho d job).1]
    by_cases h : Claims T job
    · simp [asOp, h, Registry.step, create_taken ho]
    · simp [asOp, h, Registry.step, Registry.load]
  | none =>
    rw [c153_free T ho]
    by_cases h : Claims T job
    · simp [asOp, h, Registry.step, create_free ho]
    · simp [asOp, h, Registry.step, Registry.load]

theorem step_reg {T : Tools} {s : St} {d : Nat} {c : Call} {x : St × Option Nat} (h : step T s d c = some x) :
    x.1.reg = (Registry.step s.reg d (asOp T c)).1 := by
  cases c with
  | create n => simp only [step, Option.some.injEq] at h; rw [← h]; rfl
  | load a => simp only [step, Option.some.injEq] at h; rw [← h]; rfl
  | remove n => simp only [step, Option.some.injEq] at h; rw [← h]; rfl
  | shutDown => simp only [step, Option.some.injEq] at h; rw [← h]; rfl
  | import_ n job =>
    rw [← import_reg]
    simp only [step] at h
    split at h
    · cases h
    · cases h
    · injection h with h; rw [← h]
    · injection h with h; rw [← h]
    · injection h with h; rw [← h]

theorem run_reg {T : Tools} (cs : List Call) : ∀ {s s' : St} {n : Nat}, run T s n cs = some s' → s'.reg = Registry.run s.reg n (cs.map (asOp T)) := by
  induction cs with
  | nil => intro s s' n h; simp only [run, Option.some.injEq] at h; rw [← h]; rfl
  | cons c cs ih =>
    intro s s' n h
    simp only [run] at h
    cases hx : step T s n c with
    | none => simp [hx] at h
    | some x =>
      rw [hx] at h
      rw [ih h, step_reg hx]
      rfl

theorem run_split {T : Tools} (a b : List Call) : ∀ {s s' : St} {n : Nat}, run T s n (a ++ b) = some s' →
    ∃ t, run T s n a = some t ∧ run T t (n + a.length) b = some s' := by
  induction a with
  | nil => intro s s' n h; exact ⟨s, rfl, h⟩
  | cons c a ih =>
    intro s s' n h
    simp only [List.cons_append, run] at h ⊢
    cases hx : step T s n c with
    | none => simp [hx] at h
    | some x =>
      rw [hx] at h
      obtain ⟨t, t1, t2⟩ := ih h
      refine ⟨t, t1, ?_⟩
      rw [List.length_cons, Nat.add_comm a.length, ← Nat.add_assoc]
      exact t2

/-- **C153, sessions.** After any session of calls and imports of all kinds, the database that opens under a name is the one made by a call that found the name free, and
that was followed by no removal of the name and no shutdown. -/
theorem c153_registry {T : Tools} {cs : List Call} {s : St} (h : run T {} 0 cs = some s) (name : String) (d : Nat) :
    openDb s.reg name = some d ↔ ∃ before c after, cs = before ++ c :: after ∧ d = before.length ∧ MakesC T c name ∧
      (∀ s', run T {} 0 before = some s' → openDb s'.reg name = none) ∧ ∀ o ∈ after, ¬ KillsC o name := by
  rw [run_reg cs h, Registry.c15_registry]
  constructor
  · rintro ⟨b, o, a, h1, h2, h3, h4, h5⟩
    rw [List.map_eq_append_iff] at h1
    obtain ⟨b', r, rfl, rfl, hr⟩ := h1
    rw [List.map_eq_cons_iff] at hr
    obtain ⟨c, a', rfl, rfl, rfl⟩ := hr
    refine ⟨b', c, a', rfl, by rw [h2, List.length_map], (makes_iff T c name).1 h3, fun s' hs' => ?_, fun o ho hk => ?_⟩
    · rw [run_reg b' hs']; exact h4
    · exact h5 _ (List.mem_map_of_mem ho) ((kills_iff T o name).2 hk)
  · rintro ⟨b, c, a, rfl, h2, h3, h4, h5⟩
    refine ⟨b.map (asOp T), asOp T c, a.map (asOp T), by simp, by simp [h2], (makes_iff T c name).2 h3, ?_, ?_⟩
    · obtain ⟨t, ht, -⟩ := run_split b (c :: a) h
      have := h4 t ht
      rw [run_reg b ht] at this
      exact this
    · intro o ho
      rw [List.mem_map] at ho
      obtain ⟨o', ho', rfl⟩ := ho
      exact fun hk => h5 o' ho' ((kills_iff T o' name).1 hk)

/-- **C153, other names.** An import leaves all other databases as they are. -/
theorem c153_others (T : Tools) (reg : Reg) (d : Nat) (name : String) (job : Job) {other : String} (h : other ≠ name) :
    openDb (importJob T reg d name job).1 other = openDb reg other := by
  cases ho : openDb reg name with
  | some e => rw [(taken_reg T ho d job).1]
  | none =>
    rw [c153_free T ho]
    simp only
    split_ifs
    · unfold openDb
      rw [UMap.find?_append, UMap.find?_cons, if_neg (fun e => h e.symm), UMap.find?_nil]
      cases UMap.find? reg other <;> rfl
    · rfl

/-- **C153, stuck.** As long as neither the name is removed nor the manager shut down, every import under a name in use returns null: after an import that failed as in
`c153_gds_refuted` or `c153_kicad_refuted` no import with corrected files succeeds. -/
theorem c153_stuck {T : Tools} {s s' : St} {n : Nat} {cs : List Call} (h : run T s n cs = some s') {name : String} {e : Nat} (ho : openDb s.reg name = some e)
    (hk : ∀ c ∈ cs, ¬ KillsC c name) : openDb s'.reg name = some e ∧
    ∀ (d : Nat) (job : Job), Reads T job → importJob T s'.reg d name job = (s'.reg, some (.ok none)) := by
  have key : ∀ (cs : List Call) (s : St) (n : Nat), run T s n cs = some s' → openDb s.reg name = some e → (∀ c ∈ cs, ¬ KillsC c name) →
      openDb s'.reg name = some e := by
    intro cs
    induction cs with
    | nil => intro s n h ho _; simp only [run, Option.some.injEq] at h; rw [← h]; exact ho
    | cons c cs ih =>
      intro s n h ho hk
      simp only [run] at h
      cases hx : step T s n c with
      | none => simp [hx] at h
      | some x =>
        rw [hx] at h
        refine ih x.1 _ h ?_ fun o hm => hk o (List.mem_cons_of_mem _ hm)
        rw [step_reg hx, Registry.open_step]
        exact .inl ⟨ho, fun hq => hk c (List.mem_cons_self ..) ((kills_iff T c name).1 hq)⟩
  have h1 := key cs s n h ho hk
  exact ⟨h1, fun d job hr => c153_taken T h1 d job hr⟩

/-- **C153, again.** After the name was removed an import returns what it would return in a new session. -/
theorem c153_again (T : Tools) (reg : Reg) (d : Nat) (name : String) (job : Job) :
    (importJob T (Registry.remove reg name).1 d name job).2 = (importJob T [] d name job).2 := by
  have h : openDb (Registry.remove reg name).1 name = none := by
    unfold openDb Registry.remove
    rw [UMap.find?_erase, if_pos rfl]
  rw [c153_free T h]

theorem step_made {T : Tools} {s : St} {d : Nat} {c : Call} {x : St × Option Nat} (h : step T s d c = some x) :
    ∃ l, x.1.made = s.made ++ l ∧ ∀ e ∈ l, e.1 = d := by
  cases c with
  | create n =>
    simp only [step, Option.some.injEq] at h
    rw [← h]
    simp only
    split_ifs
    · exact ⟨_, rfl, by simp⟩
    · exact ⟨[], by simp, by simp⟩
  | load a =>
    simp only [step, Option.some.injEq] at h
    rw [← h]
    simp only
    split_ifs
    · exact ⟨_, rfl, by simp⟩
    · exact ⟨[], by simp, by simp⟩
  | remove n => simp only [step, Option.some.injEq] at h; rw [← h]; exact ⟨[], by simp, by simp⟩
  | shutDown => simp only [step, Option.some.injEq] at h; rw [← h]; exact ⟨[], by simp, by simp⟩
  | import_ n job =>
    simp only [step] at h
    split at h
    · cases h
    · cases h
    · injection h with h; rw [← h]; exact ⟨[], by simp, by simp⟩
    · injection h with h; rw [← h]; exact ⟨[], by simp, by simp⟩
    · injection h with h; rw [← h]; exact ⟨_, rfl, by simp⟩

theorem run_made {T : Tools} (cs : List Call) : ∀ {s s' : St} {n : Nat}, run T s n cs = some s' →
    ∃ l, s'.made = s.made ++ l ∧ ∀ e ∈ l, n ≤ e.1 ∧ e.1 < n + cs.length := by
  induction cs with
  | nil => intro s s' n h; simp only [run, Option.some.injEq] at h; rw [← h]; exact ⟨[], by simp, by simp⟩
  | cons c cs ih =>
    intro s s' n h
    simp only [run] at h
    cases hx : step T s n c with
    | none => simp [hx] at h
    | some x =>
      rw [hx] at h
      obtain ⟨l1, a1, a2⟩ := step_made hx
      obtain ⟨l2, b1, b2⟩ := ih h
      refine ⟨l1 ++ l2, by rw [b1, a1, List.append_assoc], fun e he => ?_⟩
      rw [List.mem_append] at he
      rcases he with he | he
      · have := a2 e he; simp only [List.length_cons]; omega
      · have := b2 e he; simp only [List.length_cons]; omega

theorem find_none {l : List (Nat × Made)} {d : Nat} (h : ∀ e ∈ l, e.1 ≠ d) : UMap.find? l d = none := by
  rw [UMap.find?_eq_none_iff]
  intro hd
  rw [UMap.keys, List.mem_map] at hd
  obtain ⟨e, he, rfl⟩ := hd
  exact h e he rfl

/-- **C153, contents.** The database that opens under a name holds exactly what the import that made it makes of its files in a session of its own, whatever happened before and after in
this one; if that import threw an exception, or returned null all the same, nothing. -/
theorem c153_content {T : Tools} {cs : List Call} {s : St} (h : run T {} 0 cs = some s) {name : String} {d : Nat} (ho : openDb s.reg name = some d)
    {n : String} {job : Job} (hc : cs[d]? = some (.import_ n job)) :
    n = name ∧ ((importJob T [] d name job).2 = some (.ok (UMap.find? s.made d)) ∨
      ((importJob T [] d name job).2 = some .exn ∧ UMap.find? s.made d = none)) := by
  obtain ⟨b, c, a, rfl, rfl, h3, h4, h5⟩ := (c153_registry h name d).1 ho
  have hcc : c = .import_ n job := by simpa using hc
  subst hcc
  have hn : n = name := by
    rcases h3 with h3 | h3 | ⟨j, h3, -⟩
    · cases h3
    · cases h3
    · injection h3
  subst hn
  refine ⟨rfl, ?_⟩
  obtain ⟨t, t1, t2⟩ := run_split b (.import_ n job :: a) h
  have hfree := h4 t t1
  obtain ⟨l0, c1, c2⟩ := run_made b t1
  rw [Nat.zero_add] at t2
  simp only [run] at t2
  cases hx : step T t b.length (.import_ n job) with
  | none => simp [hx] at t2
  | some x =>
    rw [hx] at t2
    obtain ⟨l2, d1, d2⟩ := run_made a t2
    have e0 : UMap.find? t.made b.length = none := by
      rw [c1]
      exact find_none fun e he => by
        have : e ∈ l0 := by simpa using he
        have := c2 e this
        omega
    have e2 : UMap.find? l2 b.length = none := find_none fun e he => by have := d2 e he; omega
    rw [d1, UMap.find?_append, e2, Option.or_none]
    have hi : (importJob T t.reg b.length n job).2 = (importJob T [] b.length n job).2 := by rw [c153_free T hfree]
    simp only [step] at hx
    rw [hi] at hx
    generalize (importJob T [] b.length n job).2 = r at hx ⊢
    match r, hx with
    | some .exn, hx => injection hx with hx; rw [← hx]; exact .inr ⟨rfl, e0⟩
    | some (.ok none), hx => injection hx with hx; rw [← hx]; exact .inl (by rw [e0])
    | some (.ok (some m)), hx =>
      injection hx with hx
      rw [← hx]
      refine .inl ?_
      rw [UMap.find?_append, e0, UMap.find?_cons, if_pos rfl]
      rfl

/-- **C153, success.** An import that returns a database returns the one that opens under the name from then on, and the name was free. -/
theorem c153_success {T : Tools} {s : St} {d : Nat} {name : String} {job : Job} {x : St × Option Nat} {e : Nat} (h : step T s d (.import_ name job) = some x)
    (hx : x.2 = some e) : openDb s.reg name = none ∧ e = d ∧ openDb x.1.reg name = some d := by
  cases ho : openDb s.reg name with
  | some f =>
    exfalso
    have ht := (taken_reg T ho d job).2
    simp only [step] at h
    split at h
    · cases h
    · cases h
    · injection h with h; rw [← h] at hx; cases hx
    · injection h with h; rw [← h] at hx; cases hx
    · next m hm => exact ht m hm
  | none =>
    have hr := step_reg h
    simp only [step] at h
    rw [c153_free T ho] at h
    split at h
    · cases h
    · cases h
    · injection h with h; rw [← h] at hx; cases hx
    · injection h with h; rw [← h] at hx; cases hx
    · next m hm =>
      have hc := made_claims T hm
      injection h with h
      rw [← h] at hx
      injection hx with hx
      refine ⟨rfl, hx.symm, ?_⟩
      rw [hr, Registry.open_step]
      exact .inr ⟨ho, (makes_iff T _ name).2 (.inr (.inr ⟨job, rfl, hc⟩)), rfl⟩

/-- example: a GDSII file that is read, with a layer map file that cannot be opened: null is returned, the name is in use -/
example (T : Tools) (h1 : 1 ≤ T.cap) (h2 : T.cap < 2 ^ 63) (h3 : Gds.exLib.recs.length + 65 ≤ T.gdsFuel) (hd : (Gds.exLib.structs.map Gds.Struct.name).Nodup)
    (he : ∀ s ∈ Gds.exLib.structs, ∀ e ∈ s.elems, e.Ok) (hf : ∀ r ∈ Gds.exLib.recs, r.Fits) :
    importJob T [] 0 "b" (.gds (some (Gds.exLib.recs.flatMap Gds.Rec.bytes)) "m.txt" none) = ([("b", 0)], some (.ok none)) ∧
    Claims T (.gds (some (Gds.exLib.recs.flatMap Gds.Rec.bytes)) "m.txt" none) := by
  obtain ⟨db, hr, -⟩ := Gds.c44_cells_partial Gds.exLib hd he hf T.cap h1 h2 T.gdsFuel h3
  exact ⟨c153_gds_refuted T (reg := []) rfl 0 hr (path := "m.txt") (by decide) (map := none) rfl, ⟨_, db, rfl, hr⟩⟩

/-- example: a session.  The import of `b` fails and leaves its name in use, as the second try shows; after the name was removed it is in use again through the next import.
`a` is the database of call 0 all the time. -/
example (T : Tools) : ∃ s, run T {} 0 [.create "a", .import_ "b" (.kicad none), .import_ "b" (.kicad none), .remove "b", .import_ "b" (.kicad none), .import_ "c" (.xfl none),
      .import_ "d" (.dmc none none)] = some s ∧
    openDb s.reg "a" = some 0 ∧ openDb s.reg "b" = some 4 ∧ openDb s.reg "c" = none ∧ openDb s.reg "d" = none ∧ s.made.length = 1 := by
  exact ⟨_, rfl, rfl, rfl, rfl, rfl, rfl⟩

end Ecad.Session
