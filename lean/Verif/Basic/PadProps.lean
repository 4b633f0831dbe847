import Verif.Basic.PadModel
import Mathlib.Data.List.Basic
/-!
C32: pad parameters are only read for layers of the padstack.
-/
namespace Ecad.Pad
variable {S : Type}

theorem getPad_in (d : Data S) (i : Nat) (p : Pad S) (h : d.pads[i]? = some p) : getPad d (i : Int) = .ok (some p.par) := by
  have hi := (List.getElem?_eq_some_iff.1 h).1
  unfold getPad noLayer
  rw [if_neg (by omega), if_neg (by omega), if_neg (by omega), Int.toNat_natCast, h]

theorem setPad_in (d : Data S) (i : Nat) (p : Pad S) (v : Par S) (h : d.pads[i]? = some p) :
    setPad d (i : Int) v = .ok (true, { d with pads := d.pads.set i ⟨p.lyr, v⟩ }) := by
  have hi := (List.getElem?_eq_some_iff.1 h).1
  unfold setPad noLayer
  rw [if_neg (by omega), if_neg (by omega), if_neg (by omega), Int.toNat_natCast, h]

theorem getPad_out (d : Data S) (id : Int) (h : id = -1 ∨ (d.pads.length : Int) ≤ id) : getPad d id = .ok none := by
  unfold getPad noLayer
  by_cases h1 : id = -1
  · rw [if_pos h1]
  · rw [if_neg h1, if_pos (by omega)]

theorem setPad_out (d : Data S) (id : Int) (v : Par S) (h : id = -1 ∨ (d.pads.length : Int) ≤ id) :
    setPad d id v = .ok (false, d) := by
  unfold setPad noLayer
  by_cases h1 : id = -1
  · rw [if_pos h1]
  · rw [if_neg h1, if_pos (by omega)]

/-- **C32**, partial: for every layer id from −1 (`noLayer`) on: reading gives the pad at this position, or
refuses if there is none; writing refuses and changes nothing, or changes exactly the parameters of the pad at this
position.  Missing: ids below −1, see `c32_negative_refuted`. -/
theorem c32_ids_partial (d : Data S) (id : Int) (h : -1 ≤ id) (v : Par S) :
    (∀ p, 0 ≤ id → d.pads[id.toNat]? = some p →
      getPad d id = .ok (some p.par) ∧
      ∃ d', setPad d id v = .ok (true, d') ∧ getPad d' id = .ok (some v) ∧
        (∀ (k : Int), k ≠ id → getPad d' k = getPad d k) ∧
        d'.pads.map Pad.lyr = d.pads.map Pad.lyr ∧ d'.via = d.via ∧ d'.top = d.top ∧ d'.bot = d.bot ∧ d'.material = d.material) ∧
    ((id < 0 ∨ d.pads[id.toNat]? = none) → getPad d id = .ok none ∧ setPad d id v = .ok (false, d)) := by
  refine ⟨?_, ?_⟩
  · intro p h0 hp
    obtain ⟨i, rfl⟩ := Int.eq_ofNat_of_zero_le h0
    rw [Int.toNat_natCast] at hp
    have hi := (List.getElem?_eq_some_iff.1 hp).1
    refine ⟨getPad_in d i p hp, _, setPad_in d i p v hp, ?_, ?_, ?_, rfl, rfl, rfl, rfl⟩
    · exact getPad_in _ i ⟨p.lyr, v⟩ (by simp only; rw [List.getElem?_set]; simp [hi])
    · intro k hk
      unfold getPad noLayer
      simp only [List.length_set]
      by_cases h1 : k = -1
      · rw [if_pos h1, if_pos h1]
      · rw [if_neg h1, if_neg h1]
        by_cases h2 : k ≥ d.pads.length
        · rw [if_pos h2, if_pos h2]
        · rw [if_neg h2, if_neg h2]
          by_cases h3 : k < 0
          · rw [if_pos h3, if_pos h3]
          · rw [if_neg h3, if_neg h3, List.getElem?_set, if_neg (by omega)]
    · simp only [List.map_set]
      apply List.ext_getElem?
      intro n
      rw [List.getElem?_set]
      by_cases hn : i = n
      · subst hn
        rw [if_pos rfl, if_pos (by simpa using hi), List.getElem?_map, hp]
        rfl
      · rw [if_neg hn]
  · intro hn
    have : id = -1 ∨ (d.pads.length : Int) ≤ id := by
      rcases hn with hn | hn
      · omega
      · rw [List.getElem?_eq_none_iff] at hn; omega
    exact ⟨getPad_out d id this, setPad_out d id v this⟩

/-- **C32 is false of the code** for every layer id below −1, for example `ComponentLayer` (−10): every padstack
definition is read and written outside of its pads. -/
theorem c32_negative_refuted (d : Data S) (id : Int) (h : id < -1) (v : Par S) : getPad d id = .ub ∧ setPad d id v = .ub := by
  unfold getPad setPad noLayer
  rw [if_neg (by omega), if_neg (by omega), if_pos (by omega), if_neg (by omega), if_neg (by omega), if_pos (by omega)]
  exact ⟨rfl, rfl⟩

theorem padLayerFrom_spec (name : String) (ps : List (Pad S)) (i : Nat) :
    ((∀ p ∈ ps, p.lyr ≠ name) ∧ padLayerFrom name i ps = -1) ∨
    ∃ (k : Nat) (p : Pad S), ps[k]? = some p ∧ p.lyr = name ∧ (∀ (j : Nat) (q : Pad S), j < k → ps[j]? = some q → q.lyr ≠ name) ∧
      padLayerFrom name i ps = ((i + k : Nat) : Int) := by
  induction ps generalizing i with
  | nil => left; exact ⟨by simp, rfl⟩
  | cons p ps ih =>
    rw [padLayerFrom]
    by_cases h : name = p.lyr
    · right
      rw [if_pos h]
      exact ⟨0, p, rfl, h.symm, fun j q hj => by omega, by simp⟩
    · rw [if_neg h]
      rcases ih (i + 1) with ⟨h1, h2⟩ | ⟨k, q, h1, h2, h3, h4⟩
      · left
        refine ⟨?_, h2⟩
        intro q hq
        rcases List.mem_cons.1 hq with rfl | hq
        · exact fun he => h he.symm
        · exact h1 q hq
      · right
        refine ⟨k + 1, q, h1, h2, ?_, by rw [h4]; push_cast; omega⟩
        intro j r hj hr
        match j with
        | 0 => simp at hr; subst hr; exact fun he => h he.symm
        | j + 1 => exact h3 j r (by omega) hr

/-- **C32**, by name: for every name, reading and writing never goes outside of the pads: it refuses and changes
nothing if no layer has the name, and otherwise concerns the first layer that has it; what is written is read
back, other layers keep their parameters. -/
theorem c32_names (d : Data S) (name : String) (v : Par S) :
    ((∀ p ∈ d.pads, p.lyr ≠ name) → getPadN d name = .ok none ∧ setPadN d name v = .ok (false, d)) ∧
    (∀ (k : Nat) (p : Pad S), d.pads[k]? = some p → p.lyr = name →
      (∀ (j : Nat) (q : Pad S), j < k → d.pads[j]? = some q → q.lyr ≠ name) →
      getPadN d name = .ok (some p.par) ∧
      ∃ d', setPadN d name v = .ok (true, d') ∧ getPadN d' name = .ok (some v) ∧
        ∀ (i : Int), i ≠ k → getPad d' i = getPad d i) := by
  constructor
  · intro h
    have : padLayerId d name = -1 := by
      unfold padLayerId
      rcases padLayerFrom_spec name d.pads 0 with ⟨_, h2⟩ | ⟨k, q, h1, h2, _, _⟩
      · exact h2
      · exact absurd h2 (h q (List.mem_of_getElem? h1))
    unfold getPadN setPadN
    rw [this]
    exact ⟨getPad_out d _ (.inl rfl), setPad_out d _ v (.inl rfl)⟩
  · have key : ∀ (d : Data S) (k : Nat) (p : Pad S), d.pads[k]? = some p → p.lyr = name →
        (∀ (j : Nat) (q : Pad S), j < k → d.pads[j]? = some q → q.lyr ≠ name) → padLayerId d name = (k : Int) := by
      intro d k p hp hn hf
      unfold padLayerId
      rcases padLayerFrom_spec name d.pads 0 with ⟨h2, _⟩ | ⟨k', q, h1, h2, h3, h4⟩
      · exact absurd hn (h2 p (List.mem_of_getElem? hp))
      · rw [h4]
        rcases Nat.lt_trichotomy k k' with hlt | heq | hgt
        · exact absurd hn (h3 k p hlt hp)
        · rw [heq, Nat.zero_add]
        · exact absurd h2 (hf k' q hgt h1)
    intro k p hp hn hf
    have hk := key d k p hp hn hf
    obtain ⟨h1, d', h2, h3, h4, h5, _⟩ := (c32_ids_partial d (k : Int) (by omega) v).1 p (by omega) (by simpa using hp)
    unfold getPadN setPadN
    rw [hk]
    refine ⟨h1, d', h2, ?_, h4⟩
    have hk' : padLayerId d' name = (k : Int) := by
      have hnames : ∀ (j : Nat), (d'.pads[j]?).map Pad.lyr = (d.pads[j]?).map Pad.lyr := by
        intro j
        rw [← List.getElem?_map, ← List.getElem?_map, h5]
      have hkk := hnames k
      rw [hp] at hkk
      cases hp' : d'.pads[k]? with
      | none => rw [hp'] at hkk; simp at hkk
      | some p' =>
        rw [hp'] at hkk
        simp at hkk
        refine key d' k p' hp' (by rw [hkk, hn]) ?_
        intro j q hj hq
        have := hnames j
        rw [hq] at this
        cases hq' : d.pads[j]? with
        | none => rw [hq'] at this; simp at this
        | some q' =>
          rw [hq'] at this
          simp at this
          rw [this]
          exact hf j q' hj hq'
    rw [hk']
    exact h3

/-- the call leaves the pad at position `i` alone -/
def Keeps (i : Nat) : Op S → Prop
  | .layers names => i < names.length
  | .pad id _ => -1 ≤ id ∧ id ≠ i
  | .padN _ _ => False
  | _ => True

theorem getPad_pads {d d' : Data S} (h : d'.pads = d.pads) (id : Int) : getPad d' id = getPad d id := by
  unfold getPad; rw [h]

theorem keeps_step (i : Nat) (v : Par S) (d : Data S) (o : Op S) (hk : Keeps i o) (h : getPad d (i : Int) = .ok (some v)) :
    ∃ d', step d o = .ok d' ∧ getPad d' (i : Int) = .ok (some v) := by
  have hlen : ∃ p, d.pads[i]? = some p := by
    cases hp : d.pads[i]? with
    | some p => exact ⟨p, rfl⟩
    | none =>
      rw [List.getElem?_eq_none_iff] at hp
      rw [getPad_out d i (.inr (by omega))] at h
      simp at h
  obtain ⟨p, hp⟩ := hlen
  have hv : p.par = v := by
    rw [getPad_in d i p hp] at h
    simpa using h
  cases o with
  | layers names =>
    refine ⟨_, rfl, ?_⟩
    have hi : i < names.length := hk
    have : (setLayers d names).pads[i]? = some ⟨names[i], v⟩ := by
      unfold setLayers
      simp only
      rw [List.getElem?_map, List.getElem?_zipIdx, List.getElem?_eq_getElem hi]
      simp [hp, hv]
    exact getPad_in _ i _ this
  | pad id w =>
    obtain ⟨h1, h2⟩ : -1 ≤ id ∧ id ≠ i := hk
    rw [step]
    by_cases hin : 0 ≤ id ∧ id.toNat < d.pads.length
    · obtain ⟨_, d', h3, _, h4, _⟩ := (c32_ids_partial d id h1 w).1 d.pads[id.toNat] hin.1 (List.getElem?_eq_getElem hin.2)
      exact ⟨d', by rw [h3]; rfl, by rw [h4 i (by omega)]; exact h⟩
    · have : id < 0 ∨ d.pads[id.toNat]? = none := by
        rw [List.getElem?_eq_none_iff]; omega
      exact ⟨d, by rw [((c32_ids_partial d id h1 w).2 this).2]; rfl, h⟩
  | padN name w => exact absurd hk id
  | via w => exact ⟨_, rfl, (getPad_pads (d := d) rfl _).trans h⟩
  | top s th => exact ⟨_, rfl, (getPad_pads (d := d) rfl _).trans h⟩
  | bot s th => exact ⟨_, rfl, (getPad_pads (d := d) rfl _).trans h⟩
  | topMaterial m => exact ⟨_, rfl, (getPad_pads (d := d) rfl _).trans h⟩
  | botMaterial m => exact ⟨_, rfl, (getPad_pads (d := d) rfl _).trans h⟩

/-- **C32**, histories: what was written to the pad of a layer is read back after every history of further calls
that do not write this pad by id or pads by name, give ids from −1 on, and keep the number of layers above the position. -/
theorem c32_history_partial (d : Data S) (i : Nat) (v : Par S) (hi : i < d.pads.length) (os : List (Op S))
    (hk : ∀ o ∈ os, Keeps i o) : ∃ d', run d (.pad i v :: os) = .ok d' ∧ getPad d' (i : Int) = .ok (some v) := by
  obtain ⟨_, d1, h1, h2, _⟩ := (c32_ids_partial d (i : Int) (by omega) v).1 d.pads[i] (by omega) (by
    rw [Int.toNat_natCast]; exact List.getElem?_eq_getElem hi)
  have gen : ∀ (os : List (Op S)) (d : Data S), (∀ o ∈ os, Keeps i o) → getPad d (i : Int) = .ok (some v) →
      ∃ d', run d os = .ok d' ∧ getPad d' (i : Int) = .ok (some v) := by
    intro os
    induction os with
    | nil => intro d _ h; exact ⟨d, rfl, h⟩
    | cons o os ih =>
      intro d hk h
      obtain ⟨d', h3, h4⟩ := keeps_step i v d o (hk o (by simp)) h
      rw [run, h3, Res.bind_ok]
      exact ih d' (fun o ho => hk o (by simp [ho])) h4
  obtain ⟨d', h3, h4⟩ := gen os d1 hk h2
  refine ⟨d', ?_, h4⟩
  rw [run, step, h1, Res.bind_ok, Res.bind_ok]
  exact h3

/-- Setting the layers: the names are the given ones, pads at positions that exist before keep their parameters,
new ones are empty. -/
theorem c32_layers (d : Data S) (names : List String) :
    (setLayers d names).pads.map Pad.lyr = names ∧
    (∀ (i : Nat) (p : Pad S), i < names.length → d.pads[i]? = some p → getPad (setLayers d names) (i : Int) = .ok (some p.par)) ∧
    (∀ i : Nat, i < names.length → d.pads.length ≤ i → getPad (setLayers d names) (i : Int) = .ok (some ⟨none, (0, 0), 0⟩)) := by
  refine ⟨?_, ?_, ?_⟩
  · unfold setLayers
    simp only [List.map_map]
    exact List.zipIdx_map_fst 0 names
  · intro i p hi hp
    have : (setLayers d names).pads[i]? = some ⟨names[i], p.par⟩ := by
      unfold setLayers
      simp only
      rw [List.getElem?_map, List.getElem?_zipIdx, List.getElem?_eq_getElem hi]
      simp [hp]
    exact getPad_in _ i ⟨names[i], p.par⟩ this
  · intro i hi hl
    have hn : d.pads[i]? = none := by rw [List.getElem?_eq_none_iff]; exact hl
    have : (setLayers d names).pads[i]? = some ⟨names[i], Par.init⟩ := by
      unfold setLayers
      simp only
      rw [List.getElem?_map, List.getElem?_zipIdx, List.getElem?_eq_getElem hi]
      simp [hn]
    exact getPad_in _ i _ this

/-- Solder bump and ball: reading gives what was written, nothing if there is no shape; materials, top and bottom do
not disturb each other. -/
theorem c32_solder (d : Data S) (s : S) (th : Int) (m : String) :
    getTop (setTop d (some s) th) = some (s, th) ∧ getBot (setBot d (some s) th) = some (s, th) ∧
    getTop (setTop d none th) = none ∧ getBot (setBot d none th) = none ∧
    getTop (setBot d (some s) th) = getTop d ∧ getBot (setTop d (some s) th) = getBot d ∧
    getTop (setTopMaterial d m) = getTop d ∧ getBot (setBotMaterial d m) = getBot d ∧
    (setTopMaterial d m).top.material = m ∧ (setTopMaterial d m).bot = d.bot ∧
    (setBotMaterial d m).bot.material = m ∧ (setBotMaterial d m).top = d.top :=
  ⟨rfl, rfl, rfl, rfl, rfl, rfl, rfl, rfl, rfl, rfl, rfl, rfl⟩

/-- example: two of three layers have the same name; the first is written by name, the second by id -/
example : ∃ d', run (Data.init : Data Nat) [.layers ["a", "b", "b"], .padN "b" ⟨some 7, (1, 2), 3⟩, .pad 2 ⟨some 8, (0, 0), 0⟩,
      .via ⟨some 9, (0, 0), 0⟩, .layers ["x", "y"], .pad (-1) ⟨none, (0, 0), 0⟩] = .ok d' ∧
    getPad d' 1 = .ok (some ⟨some 7, (1, 2), 3⟩) ∧ getPad d' 2 = .ok none ∧ getPad d' (-10) = .ub ∧ getPadN d' "b" = .ok none :=
  ⟨_, rfl, rfl, rfl, rfl, rfl⟩

/-- example: hypotheses of the histories -/
example : 1 < (setLayers (Data.init : Data Nat) ["a", "b"]).pads.length ∧
    ∀ o ∈ ([.layers ["x", "y", "z"], .pad 0 ⟨none, (0, 0), 0⟩, .top none 3] : List (Op Nat)), Keeps 1 o := by
  refine ⟨by decide, ?_⟩
  intro o ho
  simp at ho
  rcases ho with rfl | rfl | rfl <;> simp [Keeps]

end Ecad.Pad
