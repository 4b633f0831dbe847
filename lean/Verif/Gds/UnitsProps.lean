import Verif.Gds.ReaderProps
import Mathlib.Tactic.NormNum
/-!
C44: where the units of a database come from.
-/
namespace Ecad.Gds

/-! ### units -/

/-- the calls that give units -/
def UnitsCall (c : Call) : Prop := ∃ l, c = .real4 0x03 l ∨ c = .real8 0x03 l

theorem addObject_units {d d' : Db} {o : Obj} (h : d.addObject o = .ok d') : d'.unit = d.unit ∧ d'.precision = d.precision := by
  unfold Db.addObject at h
  split at h
  · cases h
  · injection h with h; rw [← h]; exact ⟨rfl, rfl⟩

theorem endElement_units {st : Nat} {e : El} {d d' : Db} (h : endElement st e d = .ok d') : d'.unit = d.unit ∧ d'.precision = d.precision := by
  unfold endElement at h
  split at h
  · exact addObject_units h
  · exact addObject_units h
  · exact addObject_units h
  · cases he : e.points with
    | nil => rw [he] at h; cases h
    | cons p l => rw [he] at h; exact addObject_units h
  · cases he : e.points with
    | nil => rw [he] at h; cases h
    | cons p l => rw [he] at h; exact addObject_units h
  · exact addObject_units h
  · injection h with h; rw [← h]; exact ⟨rfl, rfl⟩

theorem readCall_units {s s' : Rd} {c : Call} (h : readCall s c = .ok s') (hc : ¬ UnitsCall c) : s'.db.unit = s.db.unit ∧ s'.db.precision = s.db.precision := by
  have hb : ∀ {A : Type} {r : Res A} {f : A → Res Rd}, (∀ a x, f a = .ok x → x.db.unit = s.db.unit ∧ x.db.precision = s.db.precision) → r.bind f = .ok s' →
      s'.db.unit = s.db.unit ∧ s'.db.precision = s.db.precision := by
    intro A r f hf hr
    cases r with
    | ok a => exact hf a s' hr
    | ub => cases hr
    | exn => cases hr
  have hi : ∀ t l, readInteger s t l = .ok s' → s'.db.unit = s.db.unit ∧ s'.db.precision = s.db.precision := by
    intro t l h
    unfold readInteger at h
    split at h <;> first
      | refine hb (fun a x hx => ?_) h
        first
          | (injection hx with hx; rw [← hx]; exact ⟨rfl, rfl⟩)
          | (cases hq : Res.at_ l 1 with
             | ok b => rw [hq] at hx; injection hx with hx; rw [← hx]; exact ⟨rfl, rfl⟩
             | ub => rw [hq] at hx; cases hx
             | exn => rw [hq] at hx; cases hx)
      | (injection h with h; rw [← h]; exact ⟨rfl, rfl⟩)
  have hf : ∀ t l, t ≠ 0x03 → readFloat s t l = .ok s' → s'.db.unit = s.db.unit ∧ s'.db.precision = s.db.precision := by
    intro t l ht h
    unfold readFloat at h
    split at h
    · exact absurd rfl ht
    · exact hb (fun a x hx => by injection hx with hx; rw [← hx]; exact ⟨rfl, rfl⟩) h
    · exact hb (fun a x hx => by injection hx with hx; rw [← hx]; exact ⟨rfl, rfl⟩) h
    · injection h with h; rw [← h]; exact ⟨rfl, rfl⟩
  cases c with
  | bits t l => exact hi t l h
  | int2 t l => exact hi t l h
  | int4 t l => exact hi t l h
  | real4 t l => exact hf t l (fun e => hc ⟨l, .inl (by rw [e])⟩) h
  | real8 t l => exact hf t l (fun e => hc ⟨l, .inr (by rw [e])⟩) h
  | str t l =>
    simp only [readCall] at h
    unfold readString at h
    split at h
    all_goals injection h with h; rw [← h]
    all_goals first
      | exact ⟨rfl, rfl⟩
      | (unfold Db.addCell; split_ifs <;> exact ⟨rfl, rfl⟩)
  | none t =>
    simp only [readCall] at h
    unfold readBeginEnd at h
    split at h
    case h_7 =>
      cases he : endElement s.status s.el (s.db.addLayer s.el.layer) with
      | ub => rw [he] at h; cases h
      | exn => rw [he] at h; cases h
      | ok d =>
        rw [he] at h
        injection h with h
        rw [← h]
        have h1 := endElement_units he
        have h2 : (s.db.addLayer s.el.layer).unit = s.db.unit ∧ (s.db.addLayer s.el.layer).precision = s.db.precision := by
          unfold Db.addLayer
          split_ifs <;> exact ⟨rfl, rfl⟩
        exact ⟨h1.1.trans h2.1, h1.2.trans h2.2⟩
    all_goals injection h with h; rw [← h]; exact ⟨rfl, rfl⟩

theorem readCalls_units (cs : List Call) : ∀ {s s' : Rd}, readCalls s cs = .ok s' → (∀ c ∈ cs, ¬ UnitsCall c) →
    s'.db.unit = s.db.unit ∧ s'.db.precision = s.db.precision := by
  induction cs with
  | nil => intro s s' h _; simp only [readCalls] at h; injection h with h; rw [← h]; exact ⟨rfl, rfl⟩
  | cons c cs ih =>
    intro s s' h hc
    simp only [readCalls] at h
    cases hx : readCall s c with
    | ub => rw [hx] at h; cases h
    | exn => rw [hx] at h; cases h
    | ok t =>
      rw [hx] at h
      have h1 := ih h fun c' h' => hc c' (List.mem_cons_of_mem _ h')
      have h2 := readCall_units hx (hc c (List.mem_cons_self ..))
      exact ⟨h1.1.trans h2.1, h1.2.trans h2.2⟩

/-- **C44, units.** The units of the database are those of the last record of units; without one a user unit has 1/1000 and a metre 10⁹ database units. -/
theorem c44_units {cs : List Call} {s : Rd} (h : readCalls Rd.init cs = .ok s) :
    ((∀ c ∈ cs, ¬ UnitsCall c) → s.db.unit = 1 / 1000 ∧ s.db.precision = 1 / 10 ^ 9) ∧
    ∀ a u p l b, (cs = a ++ .real4 0x03 (u :: p :: l) :: b ∨ cs = a ++ .real8 0x03 (u :: p :: l) :: b) → (∀ c ∈ b, ¬ UnitsCall c) →
      s.db.unit = u ∧ s.db.precision = p := by
  refine ⟨fun hc => ?_, fun a u p l b hcs hb => ?_⟩
  · have := readCalls_units cs h hc
    rw [this.1, this.2]
    exact ⟨rfl, by norm_num [Rd.init, Db.empty]⟩
  · have : ∃ c, cs = a ++ c :: b ∧ ∀ t : Rd, readCall t c = .ok { t with db := { t.db with unit := u, precision := p } } := by
      rcases hcs with e | e
      · exact ⟨_, e, fun t => rfl⟩
      · exact ⟨_, e, fun t => rfl⟩
    obtain ⟨c, rfl, hc⟩ := this
    rw [readCalls_append] at h
    cases hx : readCalls Rd.init a with
    | ub => rw [hx] at h; cases h
    | exn => rw [hx] at h; cases h
    | ok t =>
      rw [hx, Res.bind_ok] at h
      simp only [readCalls, hc, Res.bind_ok] at h
      exact readCalls_units b h hb

example : ∃ s, readCalls Rd.init [.int2 0x00 [600], .str 0x06 [65], .none 0x08, .int2 0x0d [3], .none 0x11] = .ok s ∧ s.db.cells.length = 1 := ⟨_, rfl, rfl⟩

end Ecad.Gds
