import Verif.Thermal.PrismBuildProps
import Verif.Thermal.PrismMeshProps
import Verif.Thermal.OpsGround
import Verif.Thermal.GridSolveProps
/-!
C63: which elements the network of a prism model connects.  C64: the network has exactly one steady temperature field.
C65: the resistance between elements of a layer.
-/
namespace Ecad.PrismT
open Ecad.Thermal Ecad.GridT

variable {K : Type} [Field K] [LinearOrder K]

/-! ### connections made by the calls -/

/-- the links of an element to others -/
def Prism.links (p : Prism K) : List (Option Nat) := [p.edge 0, p.edge 1, p.edge 2, p.top, p.bot]

theorem link_r {m : PModel K} {iniT : List K} {i n : Nat} {o : Option Nat} {r : Prism K → K → K} {v : K}
    (h : .ok (.r i n v) ∈ m.link iniT i o r) : o = some n ∧ i < n := by
  rcases mem_link h with h | ⟨n', q, t, rfl, hi, _, _, h⟩
  · cases h
  · simp only [Res.ok.injEq, Op.r.injEq, true_and] at h
    obtain ⟨rfl, _⟩ := h
    exact ⟨rfl, hi⟩

omit [LinearOrder K] in
theorem bcOps_r {m : PModel K} {bc : Option (BC K)} {i a b : Nat} {p : Prism K} {n : Option Nat} {v : K}
    (h : .ok (.r a b v) ∈ m.bcOps bc i p n) : False := by
  obtain ⟨_, _, _, h | h⟩ := mem_bcOps h <;> cases h

/-- a resistance among the calls of element `i`: to a linked element with a higher number -/
theorem elemOps_r {m : PModel K} {iniT : List K} {i a b : Nat} {p : Prism K} {v : K} (hp : m.prisms[i]? = some p)
    (h : .ok (.r a b v) ∈ m.elemOps iniT i) : a = i ∧ i < b ∧ some b ∈ p.links := by
  have ha : a = i ∧ i < b := by
    have hall : ∀ {o : Option Nat} {r : Prism K → K → K}, .ok (.r a b v) ∈ m.link iniT i o r → a = i ∧ i < b := by
      intro o r h
      rcases mem_link h with h | ⟨n', q, t, rfl, hi, _, _, h⟩
      · cases h
      · simp only [Res.ok.injEq, Op.r.injEq] at h
        omega
    unfold PModel.elemOps at h
    rw [hp] at h
    cases ht : iniT[i]? with
    | none => rw [ht] at h; simp at h
    | some t =>
      rw [ht] at h
      simp only [List.mem_append, List.mem_singleton] at h
      rcases h with (((((((h | h) | h) | h) | h) | h) | h) | h) | h
      · unfold powerOps at h; split at h <;> simp at h
      · cases h
      · exact hall h
      · exact hall h
      · exact hall h
      · exact (bcOps_r h).elim
      · exact hall h
      · exact (bcOps_r h).elim
      · exact hall h
  obtain ⟨rfl, hlt⟩ := ha
  refine ⟨rfl, hlt, ?_⟩
  unfold PModel.elemOps at h
  rw [hp] at h
  cases ht : iniT[a]? with
  | none => rw [ht] at h; simp at h
  | some t =>
    rw [ht] at h
    simp only [List.mem_append, List.mem_singleton] at h
    unfold Prism.links
    rcases h with (((((((h | h) | h) | h) | h) | h) | h) | h) | h
    · unfold powerOps at h; split at h <;> simp at h
    · cases h
    · simp [(link_r h).1]
    · simp [(link_r h).1]
    · simp [(link_r h).1]
    · exact (bcOps_r h).elim
    · simp [(link_r h).1]
    · exact (bcOps_r h).elim
    · simp [(link_r h).1]

/-- every link to an element with a higher number becomes a resistance -/
theorem elemOps_link {m : PModel K} {iniT : List K} {i n : Nat} {p q : Prism K} {t t' : K} (hp : m.prisms[i]? = some p)
    (ht : iniT[i]? = some t) (hq : m.prisms[n]? = some q) (ht' : iniT[n]? = some t') (hl : some n ∈ p.links) (hi : i < n) :
    ∃ v, .ok (.r i n v) ∈ m.elemOps iniT i := by
  have key : ∀ r, m.link iniT i (some n) r = [.ok (.r i n (r q t'))] := by
    intro r; unfold PModel.link; simp only; rw [if_pos hi, hq, ht']
  unfold Prism.links at hl
  rw [elemOps_eq hp ht]
  unfold PModel.restOps
  simp only [List.mem_append, List.mem_cons, List.not_mem_nil, or_false] at hl ⊢
  rcases hl with h | h | h | h | h <;> rw [← h, key] <;>
    simp only [List.mem_cons, List.not_mem_nil, or_false]
  · exact ⟨_, .inr (.inl (.inl (.inl (.inl (.inl (.inl (.inr rfl)))))))⟩
  · exact ⟨_, .inr (.inl (.inl (.inl (.inl (.inl (.inr rfl))))))⟩
  · exact ⟨_, .inr (.inl (.inl (.inl (.inl (.inr rfl)))))⟩
  · exact ⟨_, .inr (.inl (.inl (.inr rfl)))⟩
  · exact ⟨_, .inr (.inr rfl)⟩

omit [LinearOrder K] in
theorem blocksOps_r {m : PModel K} {a b : Nat} {v : K} (h : .ok (.r a b v) ∈ m.blocksOps) : False := by
  have key : ∀ side (bl : BC K × (Nat → Bool)), .ok (.r a b v) ∈ m.blockOps side bl → False := by
    intro side bl ho
    unfold PModel.blockOps at ho
    cases hv : bl.1.value with
    | none => rw [hv] at ho; simp at ho
    | some v =>
      rw [hv] at ho
      simp only [List.mem_filterMap] at ho
      obtain ⟨p, hpm, hp⟩ := ho
      split_ifs at hp
      cases ht : bl.1.type <;> rw [ht] at hp <;> simp at hp
  unfold PModel.blocksOps at h
  simp only [List.mem_append, List.mem_flatMap] at h
  rcases h with ⟨bl, _, ho⟩ | ⟨bl, _, ho⟩
  · exact key _ _ ho
  · exact key _ _ ho

/-- a resistance of a line has the line at one end -/
theorem lineOps_r {m : PModel K} {iniT : List K} {l : Line K} {a b : Nat} {v : K} (h : .ok (.r a b v) ∈ m.lineOps iniT l) :
    ∃ nb, (nb ∈ l.front ∨ nb ∈ l.back) ∧ ((isPrima m.off nb = true ∧ a = nb ∧ b = l.id) ∨
      (isPrima m.off nb = false ∧ l.id < nb ∧ a = l.id ∧ b = nb)) := by
  rcases mem_lineOps h with h | ⟨_, h⟩ | h | ⟨_, h⟩ | ⟨nb, hnb, t, _, h⟩
  · cases h
  · cases h
  · cases h
  · cases h
  · refine ⟨nb, hnb, ?_⟩
    rcases mem_lineR h with h | ⟨h1, _, h⟩ | ⟨h1, h2, _, h⟩
    · cases h
    · simp only [Res.ok.injEq, Op.r.injEq] at h; exact .inl ⟨h1, h.1, h.2.1⟩
    · simp only [Res.ok.injEq, Op.r.injEq] at h; exact .inr ⟨h1, h2, h.1, h.2.1⟩

/-- the conductance two nodes get: not zero exactly if some call puts a resistance between them -/
theorem conductance_iff [IsStrictOrderedRing K] {minR : K} (hm : 0 < minR) {l : List (Res (Op K))} {n : Nat} {net : Network K}
    (h : run minR (Network.new noScen n) l = .ok net) (a b : Nat) :
    conductance net a b ≠ 0 ↔ ∃ v, .ok (.r a b v) ∈ l ∨ .ok (.r b a v) ∈ l := by
  rw [(run_values h).2.2.2, conductance_new, zero_add]
  constructor
  · intro hne
    by_contra hno
    push Not at hno
    apply hne
    apply List.sum_eq_zero
    intro x hx
    rw [List.mem_map] at hx
    obtain ⟨o, ho, rfl⟩ := hx
    rcases o with op | _ | _
    · cases op
      case r i j v =>
        simp only [Op.gAt]
        rw [if_neg]
        rintro (⟨rfl, rfl⟩ | ⟨rfl, rfl⟩)
        · exact (hno v).1 ho
        · exact (hno v).2 ho
      all_goals rfl
    · rfl
    · rfl
  · rintro ⟨v, hv⟩
    have hpos : 0 < (1 : K) / max v minR := by
      have : 0 < max v minR := lt_of_lt_of_le hm (le_max_right _ _)
      positivity
    have hle : (1 : K) / max v minR ≤ (l.map (Op.gAt minR a b)).sum := by
      apply List.single_le_sum
      · intro x hx
        rw [List.mem_map] at hx
        obtain ⟨o, _, rfl⟩ := hx
        exact gAt_nonneg hm a b o
      · rw [List.mem_map]
        rcases hv with hv | hv
        · exact ⟨_, hv, by simp [Op.gAt]⟩
        · exact ⟨_, hv, by simp [Op.gAt]⟩
    exact (lt_of_lt_of_le hpos hle).ne'

/-! ### bond wires -/

/-- What the wires give: lines numbered after the prisms, with neighbours that exist, each connected backwards to a
prism or to the line before it. -/
structure LinesOK (total : Nat) (lines : List (Line K)) : Prop where
  id : ∀ (n : Nat) (l : Line K), lines[n]? = some l → l.id = total + n
  nb : ∀ (n : Nat) (l : Line K), lines[n]? = some l → ∀ x, x ∈ l.front ∨ x ∈ l.back → x < total + lines.length
  down : ∀ (n : Nat) (l : Line K), lines[n]? = some l → ∃ x ∈ l.front, x < total ∨
    ∃ k l', x = total + k ∧ k < n ∧ lines[k]? = some l' ∧ l.id ∈ l'.back

/-- the ends of a wire are at prisms -/
def Wire.Ends (total : Nat) (w : Wire K) : Prop :=
  w.start ≠ [] ∧ (∀ x ∈ w.start, x < total) ∧ ∀ x ∈ w.fin, x < total

omit [Field K] [LinearOrder K] in
theorem addSeg_length (off : List Nat) (w : Wire K) (lines : List (Line K)) (curr : Nat) :
    (addSeg off w lines curr).length = lines.length + 1 := by
  unfold addSeg
  split_ifs <;> simp

omit [Field K] [LinearOrder K] in
theorem addSeg_ok {off : List Nat} {w : Wire K} {lines : List (Line K)} {curr : Nat} (hw : w.Ends (totalPrisms off))
    (h : LinesOK (totalPrisms off) lines) (hc : curr ≠ 0 → lines ≠ []) : LinesOK (totalPrisms off) (addSeg off w lines curr) := by
  have hid : lineId off lines.length = totalPrisms off + lines.length := by unfold lineId; omega
  have hlen := addSeg_length off w lines curr
  obtain ⟨bk, hbk⟩ : ∃ bk, bk = if curr + 1 = w.points - 1 then w.fin else [] := ⟨_, rfl⟩
  have hbl : ∀ x ∈ bk, x < totalPrisms off := by
    intro x hx
    rw [hbk] at hx
    split_ifs at hx
    · exact hw.2.2 x hx
    · simp at hx
  by_cases h0 : curr = 0
  · subst h0
    have hget : ∀ n, (addSeg off w lines 0)[n]? = if n < lines.length then lines[n]? else if n = lines.length then
        some ⟨totalPrisms off + lines.length, w.mat, w.scen, w.length 0, w.area, w.current, w.start, bk⟩ else none := by
      intro n
      unfold addSeg
      simp only [if_true, hid, ← hbk]
      split_ifs with h1 h2
      · rw [List.getElem?_append_left h1]
      · subst h2; simp
      · rw [List.getElem?_append_right (by omega)]
        rw [List.getElem?_eq_none]; simp; omega
    refine ⟨?_, ?_, ?_⟩
    · intro n l hn
      rw [hget] at hn
      split_ifs at hn with h1 h2
      · exact h.id n l hn
      · simp only [Option.some.injEq] at hn; subst hn; rw [h2]
    · intro n l hn x hx
      rw [hlen]
      rw [hget] at hn
      split_ifs at hn with h1 h2
      · have := h.nb n l hn x hx; omega
      · simp only [Option.some.injEq] at hn; subst hn
        rcases hx with hx | hx
        · have := hw.2.1 x hx; omega
        · have := hbl x hx; omega
    · intro n l hn
      rw [hget] at hn
      split_ifs at hn with h1 h2
      · obtain ⟨x, hx, h3⟩ := h.down n l hn
        refine ⟨x, hx, h3.imp id ?_⟩
        rintro ⟨k, l', e, hk, hl', hb⟩
        exact ⟨k, l', e, hk, by rw [hget, if_pos (by omega)]; exact hl', hb⟩
      · simp only [Option.some.injEq] at hn; subst hn
        obtain ⟨x, hx⟩ := List.exists_mem_of_ne_nil _ hw.1
        exact ⟨x, hx, .inl (hw.2.1 x hx)⟩
  · have hne := hc h0
    have hpos : 0 < lines.length := List.length_pos_of_ne_nil hne
    have hlast : lines.getLast?.map Line.id = some (totalPrisms off + (lines.length - 1)) := by
      rw [List.getLast?_eq_getElem?, List.getElem?_eq_getElem (by omega)]
      simp only [Option.map_some, Option.some.injEq]
      exact h.id _ _ (List.getElem?_eq_getElem _)
    have hget : ∀ n, (addSeg off w lines curr)[n]? = if n < lines.length then
          (if n = lines.length - 1 then lines[n]?.map fun l => { l with back := l.back ++ [totalPrisms off + lines.length] } else lines[n]?)
        else if n = lines.length then
          some ⟨totalPrisms off + lines.length, w.mat, w.scen, w.length curr, w.area, w.current, [totalPrisms off + (lines.length - 1)],
            bk⟩ else none := by
      intro n
      unfold addSeg
      simp only [h0, if_false, hid, hlast, ← hbk]
      split_ifs with h1 h2 h3
      · rw [List.getElem?_append_left (by simpa using h1), get_modify, if_pos h2.symm]
      · rw [List.getElem?_append_left (by simpa using h1), get_modify, if_neg (fun h => h2 h.symm)]
      · subst h3; simp
      · rw [List.getElem?_append_right (by simp; omega)]
        rw [List.getElem?_eq_none]; simp; omega
    refine ⟨?_, ?_, ?_⟩
    · intro n l hn
      rw [hget] at hn
      split_ifs at hn with h1 h2 h3
      · rw [Option.map_eq_some_iff] at hn
        obtain ⟨l0, hl0, rfl⟩ := hn
        exact h.id n l0 hl0
      · exact h.id n l hn
      · simp only [Option.some.injEq] at hn; subst hn; rw [h3]
    · intro n l hn x hx
      rw [hlen]
      rw [hget] at hn
      split_ifs at hn with h1 h2 h3
      · rw [Option.map_eq_some_iff] at hn
        obtain ⟨l0, hl0, rfl⟩ := hn
        rcases hx with hx | hx
        · have := h.nb n l0 hl0 x (.inl hx); omega
        · simp only [List.mem_append, List.mem_singleton] at hx
          rcases hx with hx | hx
          · have := h.nb n l0 hl0 x (.inr hx); omega
          · omega
      · have := h.nb n l hn x hx; omega
      · simp only [Option.some.injEq] at hn; subst hn
        rcases hx with hx | hx
        · simp at hx; omega
        · have := hbl x hx; omega
    · intro n l hn
      rw [hget] at hn
      have keep : ∀ (k : Nat) (l' : Line K), lines[k]? = some l' → ∃ l'' : Line K, (addSeg off w lines curr)[k]? = some l'' ∧ ∀ x ∈ l'.back, x ∈ l''.back := by
        intro k l' hk
        have hlt := (List.getElem?_eq_some_iff.1 hk).1
        rw [hget, if_pos hlt]
        split_ifs
        · exact ⟨_, by rw [hk]; rfl, fun x hx => List.mem_append_left _ hx⟩
        · exact ⟨l', hk, fun x hx => hx⟩
      have old : ∀ l0, lines[n]? = some l0 → l0.front = l.front → l0.id = l.id → ∃ x ∈ l.front, x < totalPrisms off ∨
          ∃ k l', x = totalPrisms off + k ∧ k < n ∧ (addSeg off w lines curr)[k]? = some l' ∧ l.id ∈ l'.back := by
        intro l0 hl0 hf hi
        obtain ⟨x, hx, h3⟩ := h.down n l0 hl0
        refine ⟨x, hf ▸ hx, h3.imp _root_.id ?_⟩
        rintro ⟨k, l', e, hk, hl', hb⟩
        obtain ⟨l'', h4, h5⟩ := keep k l' hl'
        exact ⟨k, l'', e, hk, h4, hi ▸ h5 _ hb⟩
      split_ifs at hn with h1 h2 h3
      · rw [Option.map_eq_some_iff] at hn
        obtain ⟨l0, hl0, rfl⟩ := hn
        exact old l0 hl0 rfl rfl
      · exact old l hn rfl rfl
      · simp only [Option.some.injEq] at hn; subst hn
        refine ⟨_, by simp, .inr ⟨lines.length - 1, { lines[lines.length - 1] with back := lines[lines.length - 1].back ++ [totalPrisms off + lines.length] }, rfl, by omega, ?_, by simp⟩⟩
        rw [hget, if_pos (by omega), if_pos rfl, List.getElem?_eq_getElem (by omega)]
        rfl

omit [Field K] [LinearOrder K] in
theorem addWires_ok {off : List Nat} {ws : List (Wire K)} : ∀ {lines lines' : List (Line K)}, (∀ w ∈ ws, w.Ends (totalPrisms off)) →
    LinesOK (totalPrisms off) lines → addWires off lines ws = .ok lines' → LinesOK (totalPrisms off) lines' := by
  induction ws with
  | nil => intro lines lines' _ h he; simp only [addWires, Res.ok.injEq] at he; exact he ▸ h
  | cons w ws ih =>
    intro lines lines' hw h he
    unfold addWires addWire at he
    split_ifs at he with hp
    · simp at he
    · rw [Res.bind_ok] at he
      refine ih (fun w' hw' => hw w' (by simp [hw'])) ?_ he
      have : ∀ k, LinesOK (totalPrisms off) ((List.range k).foldl (addSeg off w) lines) ∧
          ((List.range k).foldl (addSeg off w) lines).length = lines.length + k := by
        intro k
        induction k with
        | zero => exact ⟨h, rfl⟩
        | succ k ihk =>
          rw [List.range_succ, List.foldl_append]
          simp only [List.foldl_cons, List.foldl_nil]
          refine ⟨addSeg_ok (hw w (by simp)) ihk.1 ?_, by rw [addSeg_length, ihk.2]; omega⟩
          intro hk hnil
          have := ihk.2
          rw [hnil] at this
          simp at this
          omega
      exact (this _).1

omit [Field K] [LinearOrder K] in
theorem linesOK_nil (total : Nat) : LinesOK total ([] : List (Line K)) := by
  constructor <;> simp

/-! ### C63 -/

/-- The model comes from a mesh: the layers extracted from it, the instances, and then the wires, whose ends are at
prisms. -/
structure Extracted (m : PModel K) (mesh : Mesh) (layers : Nat) (info : Nat → Nat → Option (Cell K)) (wires : List (Wire K)) : Prop where
  prisms : (extract mesh layers info).bind buildPrisms = .ok (m.off, m.prisms)
  lines : addWires m.off [] wires = .ok m.lines
  ends : ∀ w ∈ wires, w.Ends (totalPrisms m.off)

/-- neighbourhood in the mesh is mutual -/
def Mutual (mesh : Mesh) : Prop := ∀ t n t', nbOf mesh t n = some t' → ∃ n', nbOf mesh t' n' = some t

omit [LinearOrder K] in
theorem extracted_prisms {m : PModel K} {mesh : Mesh} {layers : Nat} {info : Nat → Nat → Option (Cell K)} {wires : List (Wire K)}
    (h : Extracted m mesh layers info wires) :
    totalPrisms m.off = before mesh.length layers info layers ∧ m.prisms.length = totalPrisms m.off ∧
    (∀ l t c, cellAt mesh.length layers info l t = some c →
      m.prisms[gid mesh.length layers info l t]? = some (prismAt mesh layers info l t c)) ∧
    (∀ (i : Nat) (p : Prism K), m.prisms[i]? = some p → ∃ l t c, cellAt mesh.length layers info l t = some c ∧
      i = gid mesh.length layers info l t ∧ p = prismAt mesh layers info l t c) := by
  obtain ⟨off, ps, he, h1, h2, h3⟩ := buildPrisms_eq mesh layers info
  rw [h.prisms] at he
  simp only [Res.ok.injEq, Prod.mk.injEq] at he
  obtain ⟨e1, e2⟩ := he
  rw [← e1] at h1
  rw [← e2] at h2
  refine ⟨h1, by rw [h1, h2], fun l t c hc => by rw [e2]; exact h3 l t c hc, ?_⟩
  intro i p hp
  have hi : i < before mesh.length layers info layers := by
    rw [← h2]; exact (List.getElem?_eq_some_iff.1 hp).1
  obtain ⟨l, t, c, hc, rfl⟩ := (gid_bijective mesh.length layers info).2 i hi
  refine ⟨l, t, c, hc, rfl, ?_⟩
  have := h3 l t c hc
  rw [← e2, hp] at this
  simpa using this

omit [LinearOrder K] in
theorem extracted_wf {m : PModel K} {mesh : Mesh} {layers : Nat} {info : Nat → Nat → Option (Cell K)} {wires : List (Wire K)}
    (h : Extracted m mesh layers info wires) : m.WF ∧ LinesOK (totalPrisms m.off) m.lines := by
  have hl := addWires_ok h.ends (linesOK_nil _) h.lines
  exact ⟨⟨(extracted_prisms h).2.1, hl.id⟩, hl⟩

omit [LinearOrder K] in
/-- links lead to elements -/
theorem mem_links {mesh : Mesh} {layers : Nat} {info : Nat → Nat → Option (Cell K)} {l t : Nat} {c : Cell K} {b : Nat}
    (h : some b ∈ (prismAt mesh layers info l t c).links) : ∃ l' t' c', cellAt mesh.length layers info l' t' = some c' ∧
      b = gid mesh.length layers info l' t' ∧
      ((l = l' ∧ ∃ n, nbOf mesh t n = some t') ∨ (t = t' ∧ (l' = l + 1 ∨ l = l' + 1))) := by
  have hslot : ∀ l' t', gslot mesh.length layers info l' t' = some b → ∃ c', cellAt mesh.length layers info l' t' = some c' ∧
      b = gid mesh.length layers info l' t' := by
    intro l' t' hs
    unfold gslot at hs
    rw [Option.map_eq_some_iff] at hs
    obtain ⟨c', hc', rfl⟩ := hs
    exact ⟨c', hc', rfl⟩
  have hedge : ∀ n, (nbOf mesh t n).bind (gslot mesh.length layers info l) = some b → ∃ l' t' c', cellAt mesh.length layers info l' t' = some c' ∧
      b = gid mesh.length layers info l' t' ∧
      ((l = l' ∧ ∃ n, nbOf mesh t n = some t') ∨ (t = t' ∧ (l' = l + 1 ∨ l = l' + 1))) := by
    intro n hn
    rw [Option.bind_eq_some_iff] at hn
    obtain ⟨t', hn, hs⟩ := hn
    obtain ⟨c', hc', hb⟩ := hslot l t' hs
    exact ⟨l, t', c', hc', hb, .inl ⟨rfl, n, hn⟩⟩
  unfold Prism.links prismAt at h
  simp only [List.mem_cons, List.not_mem_nil, or_false] at h
  rcases h with h | h | h | h | h
  · exact hedge 0 h.symm
  · exact hedge 1 h.symm
  · exact hedge 2 h.symm
  · cases l with
    | zero => cases h
    | succ k =>
      obtain ⟨c', hc', hb⟩ := hslot k t h.symm
      exact ⟨k, t, c', hc', hb, .inr ⟨rfl, .inr rfl⟩⟩
  · obtain ⟨c', hc', hb⟩ := hslot (l + 1) t h.symm
    exact ⟨l + 1, t, c', hc', hb, .inr ⟨rfl, .inl rfl⟩⟩

omit [LinearOrder K] in
theorem links_of {mesh : Mesh} {layers : Nat} {info : Nat → Nat → Option (Cell K)} {l t l' t' : Nat} {c c' : Cell K}
    (hc' : cellAt mesh.length layers info l' t' = some c')
    (h : (l = l' ∧ ∃ n, nbOf mesh t n = some t') ∨ (t = t' ∧ (l' = l + 1 ∨ l = l' + 1))) :
    some (gid mesh.length layers info l' t') ∈ (prismAt mesh layers info l t c).links := by
  have hs : gslot mesh.length layers info l' t' = some (gid mesh.length layers info l' t') := by
    unfold gslot; rw [hc']; rfl
  unfold Prism.links prismAt
  simp only [List.mem_cons, List.not_mem_nil, or_false]
  rcases h with ⟨rfl, n, hn⟩ | ⟨rfl, rfl | rfl⟩
  · have : some (gid mesh.length layers info l t') = (nbOf mesh t n).bind (gslot mesh.length layers info l) := by
      rw [hn]; exact hs.symm
    match n, this with
    | 0, h => exact .inl h
    | 1, h => exact .inr (.inl h)
    | 2, h => exact .inr (.inr (.inl h))
  · exact .inr (.inr (.inr (.inr hs.symm)))
  · exact .inr (.inr (.inr (.inl hs.symm)))

/-- a resistance between two prisms among all calls: there is a link -/
theorem ops_r {m : PModel K} {iniT : List K} (wf : m.WF) {a b : Nat} {v : K} (h : .ok (.r a b v) ∈ m.ops iniT)
    (ha : a < totalPrisms m.off) (hb : b < totalPrisms m.off) : ∃ p, m.prisms[a]? = some p ∧ a < b ∧ some b ∈ p.links := by
  unfold PModel.ops at h
  rw [List.mem_append, List.mem_append] at h
  rcases h with (h | h) | h
  · unfold PModel.rangeOps at h
    rw [List.mem_flatMap] at h
    obtain ⟨i, hi, h⟩ := h
    rw [List.mem_range'_1] at hi
    have hlt : i < m.prisms.length := by rw [wf.prisms]; omega
    obtain ⟨rfl, h2, h3⟩ := elemOps_r (List.getElem?_eq_getElem hlt) h
    exact ⟨_, List.getElem?_eq_getElem hlt, h2, h3⟩
  · rw [List.mem_flatMap] at h
    obtain ⟨l, hl, h⟩ := h
    obtain ⟨n, hn⟩ := List.mem_iff_getElem?.1 hl
    have := wf.lines n l hn
    obtain ⟨nb, _, ⟨_, rfl, rfl⟩ | ⟨_, _, rfl, rfl⟩⟩ := lineOps_r h <;> omega
  · exact (blocksOps_r h).elim

/-- **C63.** In the network of an extracted prism model, whatever bond wires there are, two prism elements are connected
exactly if they are neighbours: in the same layer and of neighbouring triangles, or of the same triangle in layers next to
each other. No element is connected to itself. -/
theorem c63_connected [IsStrictOrderedRing K] {minR : K} (hm : 0 < minR) {m : PModel K} {mesh : Mesh} {layers : Nat}
    {info : Nat → Nat → Option (Cell K)} {wires : List (Wire K)} (hx : Extracted m mesh layers info wires) (hmut : Mutual mesh)
    {iniT : List K} {net : Network K} (hb : m.build minR iniT = .ok (some net)) {l t l' t' : Nat} {c c' : Cell K}
    (hc : cellAt mesh.length layers info l t = some c) (hc' : cellAt mesh.length layers info l' t' = some c') :
    conductance net (gid mesh.length layers info l t) (gid mesh.length layers info l' t') ≠ 0 ↔
      (l = l' ∧ t ≠ t' ∧ ∃ n, nbOf mesh t n = some t') ∨ (t = t' ∧ (l' = l + 1 ∨ l = l' + 1)) := by
  obtain ⟨hlen, hr⟩ := build_run hb
  obtain ⟨h1, h2, h3, h4⟩ := extracted_prisms hx
  have wf := (extracted_wf hx).1
  have hsym : ∀ l t l' t' : Nat, ((l = l' ∧ ∃ n, nbOf mesh t n = some t') ∨ (t = t' ∧ (l' = l + 1 ∨ l = l' + 1))) →
      ((l' = l ∧ ∃ n, nbOf mesh t' n = some t) ∨ (t' = t ∧ (l = l' + 1 ∨ l' = l + 1))) := by
    rintro l t l' t' (⟨rfl, n, hn⟩ | ⟨rfl, h⟩)
    · exact .inl ⟨rfl, hmut t n t' hn⟩
    · exact .inr ⟨rfl, h.symm⟩
  have hA : gid mesh.length layers info l t < totalPrisms m.off := by rw [h1]; exact gid_lt hc
  have hB : gid mesh.length layers info l' t' < totalPrisms m.off := by rw [h1]; exact gid_lt hc'
  rw [conductance_iff hm hr]
  have fwd : ∀ (l t l' t' : Nat) (c c' : Cell K), cellAt mesh.length layers info l t = some c → cellAt mesh.length layers info l' t' = some c' →
      ∀ v, .ok (.r (gid mesh.length layers info l t) (gid mesh.length layers info l' t') v) ∈ m.ops iniT →
      gid mesh.length layers info l t < gid mesh.length layers info l' t' ∧
      ((l = l' ∧ ∃ n, nbOf mesh t n = some t') ∨ (t = t' ∧ (l' = l + 1 ∨ l = l' + 1))) := by
    intro l t l' t' c c' hc hc' v hv
    obtain ⟨p, hp, hlt, hl⟩ := ops_r wf hv (by rw [h1]; exact gid_lt hc) (by rw [h1]; exact gid_lt hc')
    rw [h3 l t c hc] at hp
    simp only [Option.some.injEq] at hp
    rw [← hp] at hl
    obtain ⟨l2, t2, c2, hc2, he, hadj⟩ := mem_links hl
    obtain ⟨rfl, rfl⟩ := (gid_bijective mesh.length layers info).1 _ _ _ _ _ _ hc' hc2 he
    exact ⟨hlt, hadj⟩
  have strict : ∀ l t l' t' : Nat, gid mesh.length layers info l t ≠ gid mesh.length layers info l' t' →
      ((l = l' ∧ ∃ n, nbOf mesh t n = some t') ∨ (t = t' ∧ (l' = l + 1 ∨ l = l' + 1))) →
      ((l = l' ∧ t ≠ t' ∧ ∃ n, nbOf mesh t n = some t') ∨ (t = t' ∧ (l' = l + 1 ∨ l = l' + 1))) := by
    rintro l t l' t' hne (⟨rfl, h⟩ | h)
    · exact .inl ⟨rfl, fun e => hne (by rw [e]), h⟩
    · exact .inr h
  have bwd : ∀ (l t l' t' : Nat) (c c' : Cell K), cellAt mesh.length layers info l t = some c → cellAt mesh.length layers info l' t' = some c' →
      gid mesh.length layers info l t < gid mesh.length layers info l' t' →
      ((l = l' ∧ ∃ n, nbOf mesh t n = some t') ∨ (t = t' ∧ (l' = l + 1 ∨ l = l' + 1))) →
      ∃ v, .ok (.r (gid mesh.length layers info l t) (gid mesh.length layers info l' t') v) ∈ m.ops iniT := by
    intro l t l' t' c c' hc hc' hlt hadj
    have hA : gid mesh.length layers info l t < totalPrisms m.off := by rw [h1]; exact gid_lt hc
    have hB : gid mesh.length layers info l' t' < totalPrisms m.off := by rw [h1]; exact gid_lt hc'
    have htot : totalPrisms m.off ≤ iniT.length := by rw [hlen, PModel.total]; omega
    obtain ⟨v, hv⟩ := elemOps_link (h3 l t c hc) (List.getElem?_eq_getElem (lt_of_lt_of_le hA htot)) (h3 l' t' c' hc')
      (List.getElem?_eq_getElem (lt_of_lt_of_le hB htot)) (links_of hc' hadj) hlt
    refine ⟨v, ?_⟩
    unfold PModel.ops PModel.rangeOps
    rw [List.mem_append, List.mem_append]
    left; left
    rw [List.mem_flatMap]
    exact ⟨_, by rw [List.mem_range'_1]; exact ⟨Nat.zero_le _, by simpa using hA⟩, hv⟩
  constructor
  · rintro ⟨v, hv | hv⟩
    · obtain ⟨hlt, hadj⟩ := fwd l t l' t' c c' hc hc' v hv
      exact strict _ _ _ _ (by omega) hadj
    · obtain ⟨hlt, hadj⟩ := fwd l' t' l t c' c hc' hc v hv
      exact strict _ _ _ _ (by omega) (hsym _ _ _ _ hadj)
  · intro h
    have hadj : (l = l' ∧ ∃ n, nbOf mesh t n = some t') ∨ (t = t' ∧ (l' = l + 1 ∨ l = l' + 1)) := by
      rcases h with ⟨e, _, h⟩ | h
      · exact .inl ⟨e, h⟩
      · exact .inr h
    have hne : gid mesh.length layers info l t ≠ gid mesh.length layers info l' t' := by
      intro he
      obtain ⟨rfl, rfl⟩ := (gid_bijective mesh.length layers info).1 _ _ _ _ _ _ hc hc' he
      rcases h with ⟨_, h, _⟩ | ⟨_, h | h⟩
      · exact h rfl
      · omega
      · omega
    rcases Nat.lt_or_gt_of_ne hne with hlt | hlt
    · obtain ⟨v, hv⟩ := bwd _ _ _ _ _ _ hc hc' hlt hadj
      exact ⟨v, .inl hv⟩
    · obtain ⟨v, hv⟩ := bwd _ _ _ _ _ _ hc' hc hlt (hsym _ _ _ _ hadj)
      exact ⟨v, .inr hv⟩

/-! ### the builder succeeds -/

theorem link_fits {m : PModel K} {iniT : List K} {i : Nat} {o : Option Nat} {r : Prism K → K → K} {N : Nat} (hi : i < N)
    (ho : ∀ n, o = some n → (m.prisms[n]?).isSome ∧ (iniT[n]?).isSome) : ∀ x ∈ m.link iniT i o r, Op.Fits N x ∧ Op.upper x < max N m.prisms.length := by
  intro x hx
  rcases mem_link hx with rfl | ⟨n', q, t, _, hlt, hq, _, rfl⟩
  · exfalso
    unfold PModel.link at hx
    cases o with
    | none => simp at hx
    | some n =>
      obtain ⟨h1, h2⟩ := ho n rfl
      rw [Option.isSome_iff_exists] at h1 h2
      obtain ⟨q, hq⟩ := h1
      obtain ⟨t, ht⟩ := h2
      simp only [hq, ht] at hx
      split_ifs at hx <;> simp at hx
  · have := (List.getElem?_eq_some_iff.1 hq).1
    constructor
    · simp only [Op.Fits]; omega
    · simp only [Op.upper]; omega

omit [LinearOrder K] in
theorem bcOps_fits {m : PModel K} {bc : Option (BC K)} {i : Nat} {p : Prism K} {n : Option Nat} {N : Nat} (hi : i < N) :
    ∀ x ∈ m.bcOps bc i p n, Op.Fits N x ∧ Op.upper x < N := by
  intro x hx
  have : 0 < N := by omega
  obtain ⟨_, _, _, rfl | rfl⟩ := mem_bcOps hx <;> exact ⟨hi, this⟩

/-- the calls of the segments of wires find their nodes -/
theorem lineOps_fits {m : PModel K} (hlines : LinesOK (totalPrisms m.off) m.lines) {iniT : List K} (hl : iniT.length = m.total) {o : Res (Op K)}
    (ho : o ∈ m.lines.flatMap (m.lineOps iniT)) : Op.Fits m.total o ∧ Op.upper o < m.total ∧ Op.nodes o = 0 := by
  have hini : ∀ n, n < m.total → (iniT[n]?).isSome := by
    intro n hn
    rw [List.getElem?_eq_getElem (by omega)]; rfl
  rw [List.mem_flatMap] at ho
  obtain ⟨l, hlm, ho⟩ := ho
  obtain ⟨n, hn⟩ := List.mem_iff_getElem?.1 hlm
  have hid := hlines.id n l hn
  have hnl := (List.getElem?_eq_some_iff.1 hn).1
  have hit : l.id < m.total := by rw [hid, PModel.total]; omega
  have hpos : 0 < m.total := by omega
  have hnodes := (lines_quiet ho 0 0).2.2
  suffices Op.Fits m.total o ∧ Op.upper o < m.total from ⟨this.1, this.2, hnodes⟩
  have hnotexn : o ≠ .exn := by
    rintro rfl
    obtain ⟨t, ht⟩ := Option.isSome_iff_exists.1 (hini _ hit)
    unfold PModel.lineOps at ho
    rw [ht] at ho
    have key : ∀ nb, (nb ∈ l.front ∨ nb ∈ l.back) → .exn ∉ m.lineR l t nb := by
      intro nb hnb he
      have hlt := hlines.nb n l hn nb hnb
      unfold PModel.lineR at he
      split_ifs at he with g1 g2
      · simp at he
      · have g3 : totalPrisms m.off ≤ nb := by
          by_contra hc
          apply g1
          unfold isPrima
          simpa using hc
        have g4 : lineLocalIndex m.off nb = nb - totalPrisms m.off := by
          unfold lineLocalIndex; rw [if_pos g3]
        rw [g4, List.getElem?_eq_getElem (by omega)] at he
        simp at he
      · simp at he
    simp only [List.mem_append, List.mem_cons, List.not_mem_nil, or_false, List.mem_flatMap] at ho
    rcases ho with (((h | h) | h) | ⟨nb, hnb, h⟩) | ⟨nb, hnb, h⟩
    · cases h
    · cases h
    · split_ifs at h
      · simp at h
      · simp at h
    · exact key nb (.inl hnb) h
    · exact key nb (.inr hnb) h
  rcases mem_lineOps ho with h | ⟨v, rfl⟩ | rfl | ⟨v, rfl⟩ | ⟨nb, hnb, t, _, h⟩
  · exact absurd h hnotexn
  · exact ⟨hit, hpos⟩
  · exact ⟨hit, hpos⟩
  · exact ⟨hit, hpos⟩
  · have hlt := hlines.nb n l hn nb hnb
    have hnbt : nb < m.total := by rw [PModel.total]; omega
    rcases mem_lineR h with h | ⟨_, v, rfl⟩ | ⟨_, _, v, rfl⟩
    · exact absurd h hnotexn
    · simp only [Op.Fits, Op.upper]; omega
    · simp only [Op.Fits, Op.upper]; omega

/-- all calls of an extracted model find their nodes -/
theorem ops_fits {m : PModel K} {mesh : Mesh} {layers : Nat} {info : Nat → Nat → Option (Cell K)} {wires : List (Wire K)}
    (hx : Extracted m mesh layers info wires) {iniT : List K} (hl : iniT.length = m.total) :
    ∀ o ∈ m.ops iniT, Op.Fits m.total o ∧ Op.upper o < m.total ∧ Op.nodes o = 0 := by
  obtain ⟨h1, h2, h3, h4⟩ := extracted_prisms hx
  obtain ⟨wf, hlines⟩ := extracted_wf hx
  have htot : totalPrisms m.off ≤ m.total := by rw [PModel.total]; omega
  have hini : ∀ n, n < m.total → (iniT[n]?).isSome := by
    intro n hn
    rw [List.getElem?_eq_getElem (by omega)]; rfl
  intro o ho
  unfold PModel.ops at ho
  rw [List.mem_append, List.mem_append] at ho
  rcases ho with (ho | ho) | ho
  · unfold PModel.rangeOps at ho
    rw [List.mem_flatMap] at ho
    obtain ⟨i, hi, ho⟩ := ho
    rw [List.mem_range'_1] at hi
    have hi' : i < totalPrisms m.off := by simpa using hi.2
    have hit : i < m.total := by omega
    have hN : max m.total m.prisms.length = m.total := by rw [h2]; omega
    obtain ⟨t, ht⟩ := Option.isSome_iff_exists.1 (hini i hit)
    have hip : i < m.prisms.length := by omega
    have hp : m.prisms[i]? = some m.prisms[i] := List.getElem?_eq_getElem hip
    obtain ⟨l, tr, c, hc, _, hpp⟩ := h4 i _ hp
    have hlink : ∀ n, some n ∈ (m.prisms[i]).links → (m.prisms[n]?).isSome ∧ (iniT[n]?).isSome := by
      intro n hn
      rw [hpp] at hn
      obtain ⟨l', t', c', hc', rfl, _⟩ := mem_links hn
      have := gid_lt hc'
      rw [← h1] at this
      exact ⟨by rw [h3 l' t' c' hc']; rfl, hini _ (by omega)⟩
    have hn := (elemOps_writes ho).1
    suffices Op.Fits m.total o ∧ Op.upper o < m.total from ⟨this.1, this.2, hn⟩
    have hL : ∀ {ol : Option Nat} {r : Prism K → K → K}, ol ∈ (m.prisms[i]).links → o ∈ m.link iniT i ol r → Op.Fits m.total o ∧ Op.upper o < m.total := by
      intro ol r hol ho
      have := link_fits hit (fun n hn => hlink n (hn ▸ hol)) o ho
      rwa [hN] at this
    rw [elemOps_eq hp ht] at ho
    unfold PModel.restOps at ho
    simp only [List.mem_append, List.mem_singleton] at ho
    rcases ho with h | ((((((h | h) | h) | h) | h) | h) | h) | h
    · unfold powerOps at h
      split at h
      · simp only [List.mem_cons, List.not_mem_nil, or_false] at h
        rcases h with rfl | rfl <;> exact ⟨hit, by simp only [Op.upper]; omega⟩
      · simp at h
    · subst h; exact ⟨hit, by simp only [Op.upper]; omega⟩
    · exact hL (by simp [Prism.links]) h
    · exact hL (by simp [Prism.links]) h
    · exact hL (by simp [Prism.links]) h
    · exact bcOps_fits hit o h
    · exact hL (by simp [Prism.links]) h
    · exact bcOps_fits hit o h
    · exact hL (by simp [Prism.links]) h
  · exact lineOps_fits hlines hl ho
  · have hnodes := (blocksOps_noAdd m o ho).2
    suffices Op.Fits m.total o ∧ Op.upper o < m.total from ⟨this.1, this.2, hnodes⟩
    have key : ∀ side (bl : BC K × (Nat → Bool)), o ∈ m.blockOps side bl → Op.Fits m.total o ∧ Op.upper o < m.total := by
      intro side bl ho
      unfold PModel.blockOps at ho
      cases hv : bl.1.value with
      | none => rw [hv] at ho; simp at ho
      | some v =>
        rw [hv] at ho
        simp only [List.mem_filterMap] at ho
        obtain ⟨p, hpm, hp⟩ := ho
        have hlt : p.2 < m.total := by
          rw [List.mem_zipIdx_iff_getElem?] at hpm
          have := (List.getElem?_eq_some_iff.1 hpm).1
          omega
        split_ifs at hp
        cases ht : bl.1.type <;> rw [ht] at hp <;> simp only [Option.some.injEq] at hp <;> subst hp <;>
          exact ⟨hlt, by simp only [Op.upper]; omega⟩
    unfold PModel.blocksOps at ho
    simp only [List.mem_append, List.mem_flatMap] at ho
    rcases ho with ⟨bl, _, ho⟩ | ⟨bl, _, ho⟩
    · exact key _ _ ho
    · exact key _ _ ho

/-- **C63, success.** From every extracted model and every vector of temperatures of the right size a network is built, with
one node per element. -/
theorem c63_builds {m : PModel K} {mesh : Mesh} {layers : Nat} {info : Nat → Nat → Option (Cell K)} {wires : List (Wire K)}
    (hx : Extracted m mesh layers info wires) (minR : K) {iniT : List K} (hl : iniT.length = m.total) :
    ∃ net, m.build minR iniT = .ok (some net) ∧ net.length = m.total := by
  obtain ⟨net, hr⟩ := (run_safe (minR := minR) (m.ops iniT) (net := Network.new noScen m.total)).2
    (safe_of_fits fun o ho => by rw [length_new]; exact (ops_fits hx hl o ho).1)
  refine ⟨net, ?_, ?_⟩
  · unfold PModel.build
    rw [if_neg (by simpa using hl), hr]
    rfl
  · rw [run_length _ hr, length_new]
    have : nodesOf (m.ops iniT) = 0 := by
      unfold nodesOf
      apply List.sum_eq_zero
      intro x hx'
      rw [List.mem_map] at hx'
      obtain ⟨o, ho, rfl⟩ := hx'
      exact (ops_fits hx hl o ho).2.2
    omega

/-! ### C64 -/

/-- The model is cooled: areas are positive, every transfer coefficient set anywhere is positive, and there is a
uniform one on the top or on the bottom. -/
structure PModel.Cooled (m : PModel K) : Prop where
  area : ∀ t, 0 < m.area t
  positive : ∀ bc, (m.topBC = some bc ∨ m.botBC = some bc ∨ (∃ b ∈ m.topBlocks, b.1 = bc) ∨ ∃ b ∈ m.botBlocks, b.1 = bc) →
    bc.type = .htc → ∀ v, bc.value = some v → 0 < v
  uniform : (∃ v, m.topBC = some ⟨.htc, some v⟩) ∨ ∃ v, m.botBC = some ⟨.htc, some v⟩

theorem onFace_pos [IsStrictOrderedRing K] {bc : BC K} {a : K} (ha : 0 < a) (h : bc.type = .htc → ∀ v, bc.value = some v → 0 < v) :
    ∀ x ∈ onFace .htc bc a, 0 < x := by
  intro x hx
  unfold onFace at hx
  cases hv : bc.value with
  | none => rw [hv] at hx; simp at hx
  | some v =>
    rw [hv] at hx
    simp only at hx
    split_ifs at hx with ht
    · simp only [List.mem_singleton] at hx
      subst hx
      exact mul_pos (h ht v hv) ha
    · simp at hx

theorem faces_pos [IsStrictOrderedRing K] {m : PModel K} (hc : m.Cooled) (p : Prism K) : ∀ x ∈ m.faces .htc p, 0 < x := by
  intro x hx
  have ha := hc.area p.elem.tri
  unfold PModel.faces at hx
  simp only [List.mem_append, List.mem_flatMap] at hx
  rcases hx with ((hx | hx) | ⟨b, hb, hx⟩) | ⟨b, hb, hx⟩
  · split_ifs at hx
    · simp only [List.mem_flatMap, Option.mem_toList] at hx
      obtain ⟨bc, hbc, hx⟩ := hx
      exact onFace_pos ha (hc.positive bc (.inl hbc)) x hx
    · simp at hx
  · split_ifs at hx
    · simp only [List.mem_flatMap, Option.mem_toList] at hx
      obtain ⟨bc, hbc, hx⟩ := hx
      exact onFace_pos ha (hc.positive bc (.inr (.inl hbc))) x hx
    · simp at hx
  · split_ifs at hx
    · exact onFace_pos ha (hc.positive b.1 (.inr (.inr (.inl ⟨b, hb, rfl⟩)))) x hx
    · simp at hx
  · split_ifs at hx
    · exact onFace_pos ha (hc.positive b.1 (.inr (.inr (.inr ⟨b, hb, rfl⟩)))) x hx
    · simp at hx

/-- lines have no transfer coefficient -/
theorem line_htc {minR : K} {m : PModel K} {iniT : List K} {net : Network K} (h : m.build minR iniT = .ok (some net))
    (wf : m.WF) {i : Nat} (hi : totalPrisms m.off ≤ i) : htcOf net i = 0 := by
  rw [(run_values (build_run h).2).2.1 i, htcOf_new, PModel.ops, List.foldl_append, List.foldl_append,
    range_fold_lines (Op.htcAt i) m iniT i hi (htcAt_writes i), foldl_id _ (m.lines.flatMap _), foldl_id]
  · intro o ho b
    have key : ∀ side (bl : BC K × (Nat → Bool)), o ∈ m.blockOps side bl → Op.htcAt i o b = b := by
      intro side bl ho
      unfold PModel.blockOps at ho
      cases hv : bl.1.value with
      | none => rw [hv] at ho; simp at ho
      | some v =>
        rw [hv] at ho
        simp only [List.mem_filterMap] at ho
        obtain ⟨p, hpm, hp⟩ := ho
        have hlt : p.2 < totalPrisms m.off := by
          rw [← wf.prisms]
          rw [List.mem_zipIdx_iff_getElem?] at hpm
          exact (List.getElem?_eq_some_iff.1 hpm).1
        split_ifs at hp
        cases ht : bl.1.type <;> rw [ht] at hp <;> simp only [Option.some.injEq] at hp <;> subst hp
        · simp only [Op.htcAt]; rw [if_neg (by omega)]
        · rfl
    unfold PModel.blocksOps at ho
    simp only [List.mem_append, List.mem_flatMap] at ho
    rcases ho with ⟨bl, _, ho⟩ | ⟨bl, _, ho⟩
    · exact key _ _ ho
    · exact key _ _ ho
  · intro o ho b
    rw [List.mem_flatMap] at ho
    obtain ⟨l, hl, ho⟩ := ho
    exact (lines_quiet ho i b).2.1

/-- Every segment of a wire is connected, over the segments before it, to a prism: if all prisms are connected to an element with a
property, so is everything. -/
theorem line_paths {m : PModel K} (hlines : LinesOK (totalPrisms m.off) m.lines) {iniT : List K} (hl : iniT.length = m.total)
    {ops : List (Res (Op K))} (inOps : ∀ l' ∈ m.lines, ∀ o ∈ m.lineOps iniT l', o ∈ ops) {net : Network K}
    (prism : ∀ i, i < totalPrisms m.off →
      ∃ b, Relation.ReflTransGen (fun a b => ∃ v, .ok (.r a b v) ∈ ops ∨ .ok (.r b a v) ∈ ops) i b ∧ 0 < htcOf net b) :
    ∀ i, i < m.total → ∃ b, Relation.ReflTransGen (fun a b => ∃ v, .ok (.r a b v) ∈ ops ∨ .ok (.r b a v) ∈ ops) i b ∧ 0 < htcOf net b := by
  have hget : ∀ i, i < m.total → ∃ t, iniT[i]? = some t := fun i hi => ⟨_, List.getElem?_eq_getElem (by omega)⟩
  have line : ∀ (n : Nat) (l : Line K), m.lines[n]? = some l →
      ∃ b, Relation.ReflTransGen (fun a b => ∃ v, .ok (.r a b v) ∈ ops ∨ .ok (.r b a v) ∈ ops) l.id b ∧ 0 < htcOf net b := by
    intro n
    induction n using Nat.strong_induction_on with
    | _ n ih =>
      intro l hn
      have hid := hlines.id n l hn
      have hnl := (List.getElem?_eq_some_iff.1 hn).1
      obtain ⟨x, hxf, hlt | ⟨k, l', rfl, hk, hl', hback⟩⟩ := hlines.down n l hn
      · obtain ⟨b, hbp, hpos⟩ := prism x hlt
        obtain ⟨T, hT⟩ := hget l.id (by rw [hid, PModel.total]; omega)
        have hop : ∃ v, .ok (.r x l.id v) ∈ m.lineOps iniT l := by
          have hR : ∃ v, .ok (.r x l.id v) ∈ m.lineR l T x := by
            unfold PModel.lineR
            rw [if_pos (by unfold isPrima; simpa using hlt)]
            exact ⟨_, List.mem_singleton.2 rfl⟩
          obtain ⟨v, hR⟩ := hR
          unfold PModel.lineOps
          rw [hT]
          simp only [List.mem_append, List.mem_flatMap]
          exact ⟨v, .inl (.inr ⟨x, hxf, hR⟩)⟩
        obtain ⟨v, hop⟩ := hop
        exact ⟨b, .head ⟨v, .inr (inOps l (List.mem_of_getElem? hn) _ hop)⟩ hbp, hpos⟩
      · obtain ⟨b, hbp, hpos⟩ := ih k hk l' hl'
        have hid' := hlines.id k l' hl'
        obtain ⟨T, hT⟩ := hget l'.id (by rw [hid', PModel.total]; omega)
        have hop : ∃ v, .ok (.r l'.id l.id v) ∈ m.lineOps iniT l' := by
          have hR : ∃ v, .ok (.r l'.id l.id v) ∈ m.lineR l' T l.id := by
            unfold PModel.lineR
            have g4 : lineLocalIndex m.off l.id = n := by
              unfold lineLocalIndex; rw [if_pos (by omega)]; omega
            rw [if_neg (by unfold isPrima; simp; omega), if_pos (by omega), g4, hn]
            exact ⟨_, List.mem_singleton.2 rfl⟩
          obtain ⟨v, hR⟩ := hR
          unfold PModel.lineOps
          rw [hT]
          simp only [List.mem_append, List.mem_flatMap]
          exact ⟨v, .inr ⟨l.id, hback, hR⟩⟩
        obtain ⟨v, hop⟩ := hop
        exact ⟨b, .head ⟨v, .inr (inOps l' (List.mem_of_getElem? hl') _ hop)⟩ (by rw [hid']; rw [hid'] at hbp; exact hbp), hpos⟩
  intro i hi
  by_cases hip : i < totalPrisms m.off
  · exact prism i hip
  · have hil : i - totalPrisms m.off < m.lines.length := by
      rw [PModel.total] at hi; omega
    have hn : m.lines[i - totalPrisms m.off]? = some m.lines[i - totalPrisms m.off] := List.getElem?_eq_getElem hil
    have := line _ _ hn
    rw [hlines.id _ _ hn] at this
    have e : totalPrisms m.off + (i - totalPrisms m.off) = i := by omega
    rwa [e] at this

/-- **C64.** From every prism model extracted from a mesh, with bond wires that end at prisms, and cooled uniformly on the
top or the bottom, a network is built in which every element is connected to the ambient; its steady temperatures
exist and are unique. -/
theorem c64_solvable [IsStrictOrderedRing K] {m : PModel K} {mesh : Mesh} {layers : Nat} {info : Nat → Nat → Option (Cell K)}
    {wires : List (Wire K)} (hx : Extracted m mesh layers info wires) (hmut : Mutual mesh) (hc : m.Cooled) {minR : K} (hm : 0 < minR)
    {iniT : List K} (hl : iniT.length = m.total) (refT : K) :
    ∃ net, m.build minR iniT = .ok (some net) ∧ Grounded net ∧
      ∃ x, Solves net refT x ∧ ∀ y, Solves net refT y → ∀ i < net.length, y i = x i := by
  obtain ⟨net, hb, hlen⟩ := c63_builds hx minR hl
  obtain ⟨_, hr⟩ := build_run hb
  obtain ⟨h1, h2, h3, h4⟩ := extracted_prisms hx
  obtain ⟨wf, hlines⟩ := extracted_wf hx
  have hnodes : nodesOf (m.ops iniT) = 0 := by
    have := run_length _ hr
    rw [length_new] at this
    omega
  have htot : totalPrisms m.off ≤ m.total := by rw [PModel.total]; omega
  have hget : ∀ i, i < m.total → ∃ t, iniT[i]? = some t := fun i hi => ⟨_, List.getElem?_eq_getElem (by omega)⟩
  have hhtc : ∀ l t c, cellAt mesh.length layers info l t = some c →
      htcOf net (gid mesh.length layers info l t) = (m.faces .htc (prismAt mesh layers info l t c)).getLastD 0 := by
    intro l t c hcell
    have hg := gid_lt hcell
    rw [← h1] at hg
    obtain ⟨T, hT⟩ := hget (gid mesh.length layers info l t) (by omega)
    exact (build_last hb wf (h3 l t c hcell) hT).2
  have hgr : Grounded net := by
    apply run_grounded hm hr
    · intro o ho
      rw [hnodes]
      exact (ops_fits hx hl o ho).2.1
    · intro i
      by_cases hi : i < totalPrisms m.off
      · obtain ⟨l, t, c, hcell, rfl⟩ := (gid_bijective mesh.length layers info).2 i (by omega)
        rw [hhtc l t c hcell]
        exact (getLastD_pos (faces_pos hc _)).1
      · rw [line_htc hb wf (by omega)]
    · -- paths
      have adj : ∀ (l t l' : Nat) (c c' : Cell K), cellAt mesh.length layers info l t = some c → cellAt mesh.length layers info l' t = some c' →
          (l' = l + 1 ∨ l = l' + 1) → ∃ v, .ok (.r (gid mesh.length layers info l t) (gid mesh.length layers info l' t) v) ∈ m.ops iniT ∨
            .ok (.r (gid mesh.length layers info l' t) (gid mesh.length layers info l t) v) ∈ m.ops iniT := by
        intro l t l' c c' hcell hcell' hll
        rw [← conductance_iff hm hr]
        exact (c63_connected hm hx hmut hb hcell hcell').2 (.inr ⟨rfl, hll⟩)
      have up : ∀ (l t : Nat) (c : Cell K), cellAt mesh.length layers info l t = some c → (∃ v, m.topBC = some ⟨.htc, some v⟩) →
          ∃ b, Relation.ReflTransGen (fun a b => ∃ v, .ok (.r a b v) ∈ m.ops iniT ∨ .ok (.r b a v) ∈ m.ops iniT)
            (gid mesh.length layers info l t) b ∧ 0 < htcOf net b := by
        intro l
        have base : ∀ (l t : Nat) (c : Cell K), cellAt mesh.length layers info l t = some c → (∃ v, m.topBC = some ⟨.htc, some v⟩) →
            gslotAbove mesh.length layers info l t = none → 0 < htcOf net (gid mesh.length layers info l t) := by
          rintro l t c hcell ⟨v, hv⟩ hnone
          rw [hhtc l t c hcell]
          apply (getLastD_pos (faces_pos hc _)).2
          unfold PModel.faces prismAt
          simp only
          rw [if_pos hnone, hv]
          simp [onFace]
        induction l with
        | zero => intro t c hcell hv; exact ⟨_, .refl, base 0 t c hcell hv rfl⟩
        | succ l ih =>
          intro t c hcell hv
          cases hab : cellAt mesh.length layers info l t with
          | none =>
            refine ⟨_, .refl, base (l + 1) t c hcell hv ?_⟩
            show gslot mesh.length layers info l t = none
            unfold gslot
            rw [hab]; rfl
          | some c' =>
            obtain ⟨b, hbp, hpos⟩ := ih t c' hab hv
            exact ⟨b, .head (adj (l + 1) t l c c' hcell hab (.inr rfl)) hbp, hpos⟩
      have down : ∀ (k l t : Nat) (c : Cell K), layers - l = k → cellAt mesh.length layers info l t = some c → (∃ v, m.botBC = some ⟨.htc, some v⟩) →
          ∃ b, Relation.ReflTransGen (fun a b => ∃ v, .ok (.r a b v) ∈ m.ops iniT ∨ .ok (.r b a v) ∈ m.ops iniT)
            (gid mesh.length layers info l t) b ∧ 0 < htcOf net b := by
        intro k
        induction k with
        | zero =>
          intro l t c hk hcell _
          have := (cellAt_lt hcell).1
          omega
        | succ k ih =>
          intro l t c hk hcell hv
          cases hbel : cellAt mesh.length layers info (l + 1) t with
          | none =>
            refine ⟨_, .refl, ?_⟩
            rw [hhtc l t c hcell]
            apply (getLastD_pos (faces_pos hc _)).2
            obtain ⟨v, hv⟩ := hv
            have hnone : gslot mesh.length layers info (l + 1) t = none := by
              unfold gslot; rw [hbel]; rfl
            unfold PModel.faces prismAt
            simp only
            rw [if_pos hnone, hv]
            simp [onFace]
          | some c' =>
            obtain ⟨b, hbp, hpos⟩ := ih (l + 1) t c' (by omega) hbel hv
            exact ⟨b, .head (adj l t (l + 1) c c' hcell hbel (.inl rfl)) hbp, hpos⟩
      have prism : ∀ i, i < totalPrisms m.off →
          ∃ b, Relation.ReflTransGen (fun a b => ∃ v, .ok (.r a b v) ∈ m.ops iniT ∨ .ok (.r b a v) ∈ m.ops iniT) i b ∧ 0 < htcOf net b := by
        intro i hi
        obtain ⟨l, t, c, hcell, rfl⟩ := (gid_bijective mesh.length layers info).2 i (by omega)
        rcases hc.uniform with hu | hu
        · exact up l t c hcell hu
        · exact down _ l t c rfl hcell hu
      rw [hnodes, Nat.add_zero]
      refine line_paths hlines hl (fun l' hl' o ho => ?_) prism
      unfold PModel.ops
      rw [List.mem_append, List.mem_append]
      left; right
      rw [List.mem_flatMap]
      exact ⟨l', hl', ho⟩
  refine ⟨net, hb, hgr, ?_⟩
  obtain ⟨x, hxs⟩ := c30_exists hgr refT
  exact ⟨x, hxs, fun y hy i hi => ((c30_maximum hgr refT x hxs).1 y hy i hi).symm⟩

/-! ### C65 -/

/-- conductance put by the link from `i` to `n` -/
theorem link_sum {minR : K} {m : PModel K} {iniT : List K} {i n : Nat} {o : Option Nat} {r : Prism K → K → K} {q : Prism K} {t : K}
    (hq : m.prisms[n]? = some q) (ht : iniT[n]? = some t) (hi : i < n) :
    ((m.link iniT i o r).map (Op.gAt minR i n)).sum = if o = some n then 1 / max (r q t) minR else 0 := by
  unfold PModel.link
  cases o with
  | none => simp
  | some n' =>
    simp only
    by_cases hn : n' = n
    · subst hn
      rw [if_pos hi, hq, ht]
      simp [Op.gAt]
    · have hne : ¬ (some n' = some n) := by simpa using hn
      rw [if_neg hne]
      split_ifs with h1
      · split
        · simp only [List.map_cons, List.map_nil, List.sum_cons, List.sum_nil, add_zero, Op.gAt]
          rw [if_neg]
          omega
        · simp [Op.gAt]
      · simp

theorem sum_zero {α : Type _} (f : α → K) (l : List α) (h : ∀ a ∈ l, f a = 0) : (l.map f).sum = 0 := by
  apply List.sum_eq_zero
  intro x hx
  rw [List.mem_map] at hx
  obtain ⟨a, ha, rfl⟩ := hx
  exact h a ha

theorem gAt_zero {minR : K} {a b : Nat} {o : Res (Op K)} (h : ∀ v, o ≠ .ok (.r a b v) ∧ o ≠ .ok (.r b a v)) : Op.gAt minR a b o = 0 := by
  rcases o with op | _ | _
  · cases op
    case r i j v =>
      simp only [Op.gAt]
      rw [if_neg]
      rintro (⟨rfl, rfl⟩ | ⟨rfl, rfl⟩)
      · exact (h v).1 rfl
      · exact (h v).2 rfl
    all_goals rfl
  · rfl
  · rfl

/-- the conductance between two prisms: the sum over the links of the one with the lower number -/
theorem conductance_links {minR : K} {m : PModel K} {iniT : List K} {net : Network K} (hb : m.build minR iniT = .ok (some net))
    (wf : m.WF) {i n : Nat} {p q : Prism K} {t t' : K} (hp : m.prisms[i]? = some p) (ht : iniT[i]? = some t)
    (hq : m.prisms[n]? = some q) (ht' : iniT[n]? = some t') (hi : i < n) :
    conductance net i n =
      (if p.edge 0 = some n then 1 / max (m.sideR p q 0 t t') minR else 0) +
      (if p.edge 1 = some n then 1 / max (m.sideR p q 1 t t') minR else 0) +
      (if p.edge 2 = some n then 1 / max (m.sideR p q 2 t t') minR else 0) +
      (if p.top = some n then 1 / max (m.vertR p q t t') minR else 0) +
      (if p.bot = some n then 1 / max (m.vertR p q t t') minR else 0) := by
  have hip : i < totalPrisms m.off := by rw [← wf.prisms]; exact (List.getElem?_eq_some_iff.1 hp).1
  have hnp : n < totalPrisms m.off := by rw [← wf.prisms]; exact (List.getElem?_eq_some_iff.1 hq).1
  rw [(run_values (build_run hb).2).2.2.2, conductance_new, zero_add, PModel.ops, List.map_append, List.map_append, List.sum_append, List.sum_append]
  have hlines : ((m.lines.flatMap (m.lineOps iniT)).map (Op.gAt minR i n)).sum = 0 := by
    apply sum_zero
    intro o ho
    rw [List.mem_flatMap] at ho
    obtain ⟨l, hl, ho⟩ := ho
    obtain ⟨k, hk⟩ := List.mem_iff_getElem?.1 hl
    have hid := wf.lines k l hk
    apply gAt_zero
    intro v
    constructor
    · rintro rfl
      obtain ⟨nb, _, ⟨_, h1, h2⟩ | ⟨_, _, h1, h2⟩⟩ := lineOps_r ho <;> omega
    · rintro rfl
      obtain ⟨nb, _, ⟨_, h1, h2⟩ | ⟨_, _, h1, h2⟩⟩ := lineOps_r ho <;> omega
  have hblocks : (m.blocksOps.map (Op.gAt minR i n)).sum = 0 := by
    apply sum_zero
    intro o ho
    apply gAt_zero
    intro v
    exact ⟨fun h => blocksOps_r (h ▸ ho), fun h => blocksOps_r (h ▸ ho)⟩
  rw [hlines, hblocks, add_zero, add_zero]
  have hrange : ((m.rangeOps iniT (0, totalPrisms m.off)).map (Op.gAt minR i n)).sum = ((m.elemOps iniT i).map (Op.gAt minR i n)).sum := by
    unfold PModel.rangeOps
    have hsplit : List.range' 0 (totalPrisms m.off - 0) = List.range' 0 i ++ i :: List.range' (i + 1) (totalPrisms m.off - i - 1) := by
      have : totalPrisms m.off - 0 = i + (1 + (totalPrisms m.off - i - 1)) := by omega
      rw [this, ← List.range'_append_1, ← List.range'_append_1]
      simp
    have hz : ∀ l : List Nat, (∀ j ∈ l, j ≠ i ∧ j < totalPrisms m.off) → ((l.flatMap (m.elemOps iniT)).map (Op.gAt minR i n)).sum = 0 := by
      intro l hl
      apply sum_zero
      intro o ho
      rw [List.mem_flatMap] at ho
      obtain ⟨j, hj, ho⟩ := ho
      obtain ⟨hne, hjt⟩ := hl j hj
      have hjp : m.prisms[j]? = some (m.prisms[j]'(by rw [wf.prisms]; exact hjt)) := List.getElem?_eq_getElem _
      apply gAt_zero
      intro v
      constructor
      · rintro rfl
        exact hne (elemOps_r hjp ho).1.symm
      · rintro rfl
        have h3 := elemOps_r hjp ho
        omega
    rw [hsplit, List.flatMap_append, List.flatMap_cons, List.map_append, List.map_append, List.sum_append, List.sum_append, hz, hz]
    · rw [zero_add, add_zero]
    · intro j hj; rw [List.mem_range'_1] at hj; omega
    · intro j hj; rw [List.mem_range'_1] at hj; omega
  have hbc : ∀ bc o', ((m.bcOps bc i p o').map (Op.gAt minR i n)).sum = 0 := by
    intro bc o'
    apply sum_zero
    intro o ho
    apply gAt_zero
    intro v
    exact ⟨fun h => bcOps_r (h ▸ ho), fun h => bcOps_r (h ▸ ho)⟩
  have hpow : ((powerOps i p t).map (Op.gAt minR i n)).sum = 0 := by
    unfold powerOps
    rcases p.elem.cell.power with _ | ⟨a, b, c⟩
    · rfl
    · simp [Op.gAt]
  rw [hrange, elemOps_eq hp ht]
  unfold PModel.restOps
  simp only [List.map_append, List.sum_append, hpow, hbc, link_sum hq ht' hi]
  simp [Op.gAt]

omit [LinearOrder K] in
theorem before_lt (tris layers : Nat) (info : Nat → Nat → Option (Cell K)) {l l' t t' : Nat} {c : Cell K} (h : l < l')
    (hc : cellAt tris layers info l t = some c) : gid tris layers info l t < gid tris layers info l' t' := by
  have hmono : ∀ k, before tris layers info (l + 1) ≤ before tris layers info (l + 1 + k) := by
    intro k
    induction k with
    | zero => exact le_refl _
    | succ k ih =>
      have : before tris layers info (l + 1 + (k + 1)) = before tris layers info (l + 1 + k) + rank (cellAt tris layers info (l + 1 + k)) tris := by
        unfold before
        rw [← Nat.add_assoc, List.range_succ, List.map_append, List.sum_append]
        simp
      omega
  have h1 : before tris layers info (l + 1) = before tris layers info l + rank (cellAt tris layers info l) tris := by
    unfold before
    rw [List.range_succ, List.map_append, List.sum_append]
    simp
  have h2 : rank (cellAt tris layers info l) t < rank (cellAt tris layers info l) tris :=
    rank_lt _ (cellAt_lt hc).2 (by rw [hc]; rfl)
  have h3 := hmono (l' - (l + 1))
  have e : l + 1 + (l' - (l + 1)) = l' := by omega
  rw [e] at h3
  unfold gid
  omega

/-- **C65, across layers.** Between the elements of a triangle in two layers next to each other the network has the
conductance of half of the one and half of the other prism in series (with the least resistance the network stores). -/
theorem c65_layers {minR : K} {m : PModel K} {mesh : Mesh} {layers : Nat} {info : Nat → Nat → Option (Cell K)}
    {wires : List (Wire K)} (hx : Extracted m mesh layers info wires) {iniT : List K} {net : Network K}
    (hb : m.build minR iniT = .ok (some net)) {l t : Nat} {c c' : Cell K} {T T' : K}
    (hc : cellAt mesh.length layers info l t = some c) (hc' : cellAt mesh.length layers info (l + 1) t = some c')
    (hT : iniT[gid mesh.length layers info l t]? = some T) (hT' : iniT[gid mesh.length layers info (l + 1) t]? = some T') :
    conductance net (gid mesh.length layers info l t) (gid mesh.length layers info (l + 1) t) =
      1 / max (m.height l / 2 / (m.k c.mat T 2 * m.area t) + m.height (l + 1) / 2 / (m.k c'.mat T' 2 * m.area t)) minR := by
  obtain ⟨h1, h2, h3, h4⟩ := extracted_prisms hx
  have wf := (extracted_wf hx).1
  have hlt := before_lt mesh.length layers info (t' := t) (Nat.lt_succ_self l) hc
  rw [conductance_links hb wf (h3 l t c hc) hT (h3 (l + 1) t c' hc') hT' hlt]
  have hedge : ∀ n, (prismAt mesh layers info l t c).edge n ≠ some (gid mesh.length layers info (l + 1) t) := by
    intro n he
    unfold prismAt at he
    simp only [Option.bind_eq_some_iff] at he
    obtain ⟨t', _, hs⟩ := he
    unfold gslot at hs
    rw [Option.map_eq_some_iff] at hs
    obtain ⟨c2, hc2, hg⟩ := hs
    have := ((gid_bijective mesh.length layers info).1 _ _ _ _ _ _ hc2 hc' hg).1
    omega
  have htop : (prismAt mesh layers info l t c).top ≠ some (gid mesh.length layers info (l + 1) t) := by
    intro he
    unfold prismAt at he
    simp only at he
    cases l with
    | zero => cases he
    | succ k =>
      have he' : gslot mesh.length layers info k t = some (gid mesh.length layers info (k + 1 + 1) t) := he
      unfold gslot at he'
      rw [Option.map_eq_some_iff] at he'
      obtain ⟨c2, hc2, hg⟩ := he'
      have := ((gid_bijective mesh.length layers info).1 _ _ _ _ _ _ hc2 hc' hg).1
      omega
  have hbot : (prismAt mesh layers info l t c).bot = some (gid mesh.length layers info (l + 1) t) := by
    unfold prismAt gslot
    simp only
    rw [hc']; rfl
  rw [if_neg (hedge 0), if_neg (hedge 1), if_neg (hedge 2), if_neg htop, if_pos hbot]
  simp only [zero_add]
  congr 2
  unfold PModel.vertR prismAt elemAt
  simp only
  rw [add_div, div_div, div_div]
  congr 1 <;> congr 1 <;> ring

/-- **C65, within a layer.** What the builder takes for the resistance between two neighbours of a layer - `d` is the distance of
the first centre to the common side, `d'` that of the other, `D` the distance of the centres - is the series of the two
parts exactly if `D = d + d'`, that is, if the line between the centres crosses the side at a right angle. -/
theorem c65_side_refuted {m : PModel K} {p q : Prism K} {e e' : Fin 3} {t t' : K}
    (hA : m.height p.layer * m.edgeLen p.elem.tri e ≠ 0)
    (hk : 1 / 2 * (m.k q.elem.cell.mat t' 0 + m.k q.elem.cell.mat t' 1) ≠ 0) :
    m.sideR p q e t t' =
      m.toSide p.elem.tri e / (1 / 2 * (m.k p.elem.cell.mat t 0 + m.k p.elem.cell.mat t 1) * (m.height p.layer * m.edgeLen p.elem.tri e)) +
      m.toSide q.elem.tri e' / (1 / 2 * (m.k q.elem.cell.mat t' 0 + m.k q.elem.cell.mat t' 1) * (m.height p.layer * m.edgeLen p.elem.tri e)) ↔
    m.dist p.elem.tri q.elem.tri = m.toSide p.elem.tri e + m.toSide q.elem.tri e' := by
  unfold PModel.sideR
  simp only
  rw [div_div, div_div, add_right_inj, div_left_inj' (mul_ne_zero hk hA), sub_eq_iff_eq_add, add_comm]

/-- **C65, numbering.** The resistance between two neighbours of a layer seen from either side is the same exactly if the line
between the centres is perpendicular to the common side or both have the same conductivity: otherwise the
network depends on the order in which the triangles are numbered. -/
theorem c65_order_refuted {m : PModel K} {p q : Prism K} {e e' : Fin 3} {t t' kp kq : K} (hl : p.layer = q.layer)
    (hE : m.edgeLen p.elem.tri e = m.edgeLen q.elem.tri e') (hD : m.dist p.elem.tri q.elem.tri = m.dist q.elem.tri p.elem.tri)
    (hA : m.height p.layer * m.edgeLen p.elem.tri e ≠ 0)
    (hkp : kp = 1 / 2 * (m.k p.elem.cell.mat t 0 + m.k p.elem.cell.mat t 1)) (hp : kp ≠ 0)
    (hkq : kq = 1 / 2 * (m.k q.elem.cell.mat t' 0 + m.k q.elem.cell.mat t' 1)) (hq : kq ≠ 0) :
    m.sideR p q e t t' = m.sideR q p e' t' t ↔
      m.dist p.elem.tri q.elem.tri = m.toSide p.elem.tri e + m.toSide q.elem.tri e' ∨ kp = kq := by
  unfold PModel.sideR
  simp only
  rw [← hkp, ← hkq, ← hl, ← hE, ← hD]
  generalize m.height p.layer * m.edgeLen p.elem.tri e = A at *
  generalize m.dist p.elem.tri q.elem.tri = D at *
  generalize m.toSide p.elem.tri e = d
  generalize m.toSide q.elem.tri e' = d'
  have key : d / kp / A + (D - d) / kq / A - (d' / kq / A + (D - d') / kp / A) = (D - (d + d')) * (kp - kq) / (kp * kq * A) := by
    field_simp
    ring
  rw [← sub_eq_zero, key, div_eq_zero_iff, mul_eq_zero, sub_eq_zero, sub_eq_zero]
  constructor
  · rintro (h | h)
    · exact h
    · exact absurd h (mul_ne_zero (mul_ne_zero hp hq) hA)
  · exact .inl

/-! ### an example -/

/-- two neighbouring triangles -/
def exMesh : Mesh := [fun n => if n = 0 then some 1 else none, fun n => if n = 2 then some 0 else none]

/-- two layers; triangle 0 has no material in the lower layer, triangle 1 is copper above something else -/
def exInfo (l t : Nat) : Option (Cell ℚ) :=
  if l = 1 ∧ t = 0 then none else some ⟨if t = 1 ∧ l = 0 then 1 else 0, none⟩

/-- the model of the two triangles with a wire of two segments between them -/
def exModel : PModel ℚ :=
  { off := [0, 2, 3],
    prisms := [prismAt exMesh 2 exInfo 0 0 ⟨0, none⟩, prismAt exMesh 2 exInfo 0 1 ⟨1, none⟩, prismAt exMesh 2 exInfo 1 1 ⟨0, none⟩],
    lines := [⟨3, 0, 0, 1, 1, 1, [0], [4]⟩, ⟨4, 0, 0, 1, 1, 1, [3], [2]⟩],
    area := fun _ => 1 / 2, edgeLen := fun _ _ => 1, toSide := fun _ _ => 3 / 2, dist := fun _ _ => 5, height := fun _ => 1,
    k := fun mat _ _ => if mat = 1 then 4 else 1, heat := fun _ _ => 1, rho := fun _ _ => 1, resist := fun _ _ => 2,
    topBC := some ⟨.htc, some 3⟩, botBC := none, topBlocks := [], botBlocks := [] }

def exWire : Wire ℚ := ⟨3, 0, 0, 1, fun _ => 1, 1, [0], [2]⟩

theorem exMesh_mutual : Mutual exMesh := by
  intro t n t' h
  unfold nbOf exMesh at h
  match t, h with
  | 0, h =>
    simp at h
    obtain ⟨_, rfl⟩ := h
    exact ⟨2, by rfl⟩
  | 1, h =>
    simp at h
    obtain ⟨_, rfl⟩ := h
    exact ⟨0, by rfl⟩
  | t + 2, h => simp at h

theorem exModel_extracted : Extracted exModel exMesh 2 exInfo [exWire] := by
  refine ⟨?_, rfl, ?_⟩
  · obtain ⟨off, ps, he, h1, h2, h3⟩ := buildPrisms_eq exMesh 2 exInfo
    rw [he]
    have hoff : off = [0, 2, 3] := by
      rw [extract_eq, Res.bind_ok] at he
      unfold buildPrisms at he
      simp only at he
      cases hm : mapRes (makePrism (offsets 0 (((List.range 2).map fun l =>
        layerOf exMesh.length (cellAt exMesh.length 2 exInfo l) (elemAt exMesh 2 exInfo l)).map List.length))
          ((List.range 2).map fun l => layerOf exMesh.length (cellAt exMesh.length 2 exInfo l) (elemAt exMesh 2 exInfo l)))
        (List.range (totalPrisms (offsets 0 (((List.range 2).map fun l =>
        layerOf exMesh.length (cellAt exMesh.length 2 exInfo l) (elemAt exMesh 2 exInfo l)).map List.length)))) with
      | ok x =>
        rw [hm, Res.bind_ok] at he
        simp only [Res.ok.injEq, Prod.mk.injEq] at he
        rw [← he.1]
        rfl
      | ub => rw [hm] at he; simp at he
      | exn => rw [hm] at he; simp at he
    have hps : ps = exModel.prisms := by
      apply List.ext_getElem?
      intro i
      match i with
      | 0 => exact h3 0 0 ⟨0, none⟩ rfl
      | 1 => exact h3 0 1 ⟨1, none⟩ rfl
      | 2 => exact h3 1 1 ⟨0, none⟩ rfl
      | i + 3 =>
        have h2' : ps.length = 3 := h2
        rw [List.getElem?_eq_none (by omega), List.getElem?_eq_none (by show 3 ≤ i + 3; omega)]
    rw [hoff, hps]
    rfl
  · intro w hw
    simp only [List.mem_singleton] at hw
    subst hw
    refine ⟨by simp [exWire], ?_, ?_⟩
    · intro x hx; simp [exWire] at hx; subst hx; decide
    · intro x hx; simp [exWire] at hx; subst hx; decide

theorem exModel_cooled : exModel.Cooled := by
  refine ⟨fun _ => by norm_num [exModel], ?_, .inl ⟨3, rfl⟩⟩
  rintro bc (h | h | ⟨b, hb, _⟩ | ⟨b, hb, _⟩) _ v hv
  · simp only [exModel, Option.some.injEq] at h
    subst h
    simp only [Option.some.injEq] at hv
    subst hv
    norm_num
  · simp [exModel] at h
  · simp [exModel] at hb
  · simp [exModel] at hb

/-- the hypotheses of C63 and C64 are met -/
example : ∃ net, exModel.build (1 / 1000) [25, 25, 25, 25, 25] = .ok (some net) ∧ Grounded net :=
  let ⟨net, h1, h2, _⟩ := c64_solvable exModel_extracted exMesh_mutual exModel_cooled (minR := 1 / 1000) (by norm_num)
    (iniT := [25, 25, 25, 25, 25]) rfl 25
  ⟨net, h1, h2⟩

/-- the centres are not opposite each other (`D = 5` for `d = d' = 3/2`) and the materials differ: the resistance depends on
the side it is computed from -/
example : exModel.sideR (prismAt exMesh 2 exInfo 0 0 ⟨0, none⟩) (prismAt exMesh 2 exInfo 0 1 ⟨1, none⟩) 0 25 25 = 19 / 8 ∧
    exModel.sideR (prismAt exMesh 2 exInfo 0 1 ⟨1, none⟩) (prismAt exMesh 2 exInfo 0 0 ⟨0, none⟩) 2 25 25 = 31 / 8 := by
  constructor <;> norm_num [PModel.sideR, exModel, prismAt, elemAt]

end Ecad.PrismT
