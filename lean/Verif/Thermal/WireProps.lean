import Verif.Thermal.StackPrismNetProps
import Mathlib.Tactic.LinearCombination
/-!
C151: the thermal resistances of bond wires in the networks of prism models.
-/
namespace Ecad.WireT
open Ecad.Thermal Ecad.GridT Ecad.PrismT

variable {K : Type} [Field K] [LinearOrder K]

/-! ## specification -/

/-- thermal resistance of half a segment: length over the mean of the conductivities in the three directions and over the cross
section -/
def half (k : Nat → K → Fin 3 → K) (w : Wire K) (j : Nat) (T : K) : K :=
  w.length j / 2 / ((k w.mat T 0 + k w.mat T 1 + k w.mat T 2) / 3 * w.area)

/-- segments of the wires before -/
def segs (ws : List (Wire K)) : Nat := (ws.map fun w => w.points - 1).sum

/-- segment `j` of a wire, if `b` segments are before the wire -/
def segLine (off : List Nat) (w : Wire K) (b j : Nat) : Line K :=
  ⟨totalPrisms off + (b + j), w.mat, w.scen, w.length j, w.area, w.current,
    if j = 0 then w.start else [totalPrisms off + (b + j - 1)],
    if j + 1 = w.points - 1 then w.fin else [totalPrisms off + (b + j + 1)]⟩

/-! ## the segments of wires -/

/-- segment `j` when `k` segments are there -/
def segUpTo (off : List Nat) (w : Wire K) (b k j : Nat) : Line K :=
  { segLine off w b j with
    back := if j + 1 = w.points - 1 then w.fin else if j + 1 < k then [totalPrisms off + (b + j + 1)] else [] }

omit [Field K] [LinearOrder K] in
theorem fold_segs (off : List Nat) (w : Wire K) (lines : List (Line K)) : ∀ k, k ≤ w.points - 1 →
    (List.range k).foldl (addSeg off w) lines = lines ++ (List.range k).map (segUpTo off w lines.length k) := by
  intro k
  induction k with
  | zero => intro _; simp
  | succ k ih =>
    intro hk
    rw [List.range_succ, List.foldl_append, ih (by omega), List.foldl_cons, List.foldl_nil]
    cases k with
    | zero =>
      simp [addSeg, segUpTo, segLine, lineId]
    | succ k =>
      have hold : (List.range (k + 1)).map (segUpTo off w lines.length (k + 1)) =
          (List.range k).map (segUpTo off w lines.length (k + 1 + 1)) ++ [segUpTo off w lines.length (k + 1) k] := by
        rw [List.range_succ, List.map_append, List.map_singleton]
        congr 1
        apply List.map_congr_left
        intro j hj
        rw [List.mem_range] at hj
        unfold segUpTo
        rw [if_pos (show j + 1 < k + 1 by omega), if_pos (show j + 1 < k + 1 + 1 by omega)]
      rw [hold]
      unfold addSeg
      simp only [Nat.add_eq_zero_iff, one_ne_zero, and_false, if_false]
      have hlen : (lines ++ ((List.range k).map (segUpTo off w lines.length (k + 1 + 1)) ++ [segUpTo off w lines.length (k + 1) k])).length = lines.length + k + 1 := by
        simp; omega
      rw [hlen]
      have hlast : (lines ++ ((List.range k).map (segUpTo off w lines.length (k + 1 + 1)) ++ [segUpTo off w lines.length (k + 1) k])).getLast? =
          some (segUpTo off w lines.length (k + 1) k) := by
        rw [← List.append_assoc, List.getLast?_append]
        simp
      rw [hlast]
      have hmod : (lines ++ ((List.range k).map (segUpTo off w lines.length (k + 1 + 1)) ++ [segUpTo off w lines.length (k + 1) k])).modify (lines.length + k + 1 - 1)
          (fun l => { l with back := l.back ++ [lineId off (lines.length + k + 1)] }) =
          lines ++ ((List.range k).map (segUpTo off w lines.length (k + 1 + 1)) ++ [segUpTo off w lines.length (k + 1 + 1) k]) := by
        have e1 : lines.length + k + 1 - 1 = (lines ++ (List.range k).map (segUpTo off w lines.length (k + 1 + 1))).length + 0 := by simp
        rw [e1, ← List.append_assoc, ← List.append_assoc]
        apply List.ext_getElem?
        intro n
        rw [List.getElem?_modify]
        set A := lines ++ (List.range k).map (segUpTo off w lines.length (k + 1 + 1)) with hA
        by_cases hn : n < A.length
        · rw [List.getElem?_append_left hn, List.getElem?_append_left hn]
          simp only [show ¬ A.length + 0 = n by omega, if_false]
          cases A[n]? <;> rfl
        · rw [List.getElem?_append_right (by omega), List.getElem?_append_right (by omega)]
          by_cases h2 : n = A.length
          · subst h2
            simp only [add_zero, if_true, Nat.sub_self, List.getElem?_cons_zero, Option.map_eq_map, Option.map_some]
            unfold segUpTo
            simp only [if_neg (show ¬ k + 1 = w.points - 1 by omega), if_neg (show ¬ k + 1 < k + 1 by omega), if_pos (show k + 1 < k + 1 + 1 by omega)]
            simp [lineId, Nat.add_assoc]
            omega
          · rw [List.getElem?_eq_none (by simp; omega), List.getElem?_eq_none (by simp; omega)]
            rfl
      rw [hmod]
      rw [List.map_append, List.map_singleton, List.range_succ, List.map_append, List.map_singleton, ← List.append_assoc lines]
      rw [← List.append_assoc lines, ← List.append_assoc lines]
      congr 1
      simp [segUpTo, segLine, lineId]
      omega

omit [Field K] [LinearOrder K] in
/-- what the wires give: one wire after the other, each with its segments in a chain -/
theorem lines_eq (off : List Nat) : ∀ (ws : List (Wire K)) (lines lines' : List (Line K)), addWires off lines ws = .ok lines' →
    lines'.length = lines.length + segs ws ∧ (∀ n, n < lines.length → lines'[n]? = lines[n]?) ∧
    ∀ (pre post : List (Wire K)) (w : Wire K), ws = pre ++ w :: post → ∀ j < w.points - 1,
      lines'[lines.length + segs pre + j]? = some (segLine off w (lines.length + segs pre) j) := by
  intro ws
  induction ws with
  | nil =>
    intro lines lines' h
    simp only [addWires, Res.ok.injEq] at h
    subst h
    exact ⟨by simp [segs], fun _ _ => rfl, fun pre post w h => by simp at h⟩
  | cons w ws ih =>
    intro lines lines' h
    unfold addWires addWire at h
    split_ifs at h with hp
    · simp at h
    · rw [Res.bind_ok, fold_segs off w lines _ le_rfl] at h
      obtain ⟨h1, h2, h3⟩ := ih _ _ h
      have hlen : (lines ++ (List.range (w.points - 1)).map (segUpTo off w lines.length (w.points - 1))).length = lines.length + (w.points - 1) := by simp
      rw [hlen] at h1 h2 h3
      refine ⟨by rw [h1]; simp [segs]; omega, ?_, ?_⟩
      · intro n hn
        rw [h2 n (by omega), List.getElem?_append_left hn]
      · intro pre post w' he j hj
        cases pre with
        | nil =>
          simp only [List.nil_append, List.cons.injEq] at he
          obtain ⟨rfl, _⟩ := he
          have e : lines.length + segs ([] : List (Wire K)) = lines.length := by simp [segs]
          rw [e, h2 _ (by omega), List.getElem?_append_right (by omega)]
          have e2 : lines.length + j - lines.length = j := by omega
          rw [e2, List.getElem?_map, List.getElem?_range hj, Option.map_some]
          congr 1
          unfold segUpTo segLine
          by_cases hl : j + 1 = w.points - 1
          · simp only [if_pos hl]
          · simp only [if_neg hl, if_pos (show j + 1 < w.points - 1 by omega)]
        | cons w'' pre =>
          simp only [List.cons_append, List.cons.injEq] at he
          obtain ⟨rfl, he⟩ := he
          have e : lines.length + segs (w :: pre) = lines.length + (w.points - 1) + segs pre := by simp [segs]; omega
          rw [e]
          exact h3 pre post w' he j hj

/-! ## conductances from lines -/

omit [LinearOrder K] in
theorem sum_one {α : Type} (f : α → K) : ∀ (l : List α) (n : Nat) (a : α), l[n]? = some a → (∀ n' a', l[n']? = some a' → n' ≠ n → f a' = 0) →
    (l.map f).sum = f a := by
  intro l
  induction l with
  | nil => intro n a h; simp at h
  | cons x l ih =>
    intro n a h h0
    rw [List.map_cons, List.sum_cons]
    cases n with
    | zero =>
      simp only [List.getElem?_cons_zero, Option.some.injEq] at h
      subst h
      have : (l.map f).sum = 0 := by
        apply List.sum_eq_zero
        intro y hy
        rw [List.mem_map] at hy
        obtain ⟨b, hb, rfl⟩ := hy
        obtain ⟨n', hn'⟩ := List.mem_iff_getElem?.1 hb
        exact h0 (n' + 1) b (by simpa using hn') (by omega)
      rw [this, add_zero]
    | succ n =>
      rw [List.getElem?_cons_succ] at h
      rw [h0 0 x (by simp) (by omega), zero_add]
      exact ih n a h fun n' a' h' hne => h0 (n' + 1) a' (by simpa using h') (by omega)

omit [LinearOrder K] in
theorem sum_flat {α β : Type} (g : α → List β) (f : β → K) (l : List α) :
    ((l.flatMap g).map f).sum = (l.map fun a => ((g a).map f).sum).sum := by
  induction l with
  | nil => rfl
  | cons a l ih => rw [List.flatMap_cons, List.map_append, List.sum_append, ih, List.map_cons, List.sum_cons]

omit [LinearOrder K] in
theorem sum_count (l : List Nat) (x : Nat) (v : K) : (l.map fun n => if n = x then v else 0).sum = l.count x * v := by
  induction l with
  | nil => simp
  | cons a l ih =>
    rw [List.map_cons, List.sum_cons, ih, List.count_cons]
    by_cases h : a = x
    · simp [h]; ring
    · simp [h]

theorem line_sum {minR : K} {m : PModel K} {iniT : List K} {l : Line K} {t : K} (ht : iniT[l.id]? = some t) (a b : Nat) :
    ((m.lineOps iniT l).map (Op.gAt minR a b)).sum = (l.front.map fun nb => ((m.lineR l t nb).map (Op.gAt minR a b)).sum).sum +
      (l.back.map fun nb => ((m.lineR l t nb).map (Op.gAt minR a b)).sum).sum := by
  unfold PModel.lineOps
  rw [ht]
  simp only [List.map_append, List.sum_append, sum_flat]
  have : ((if 0 < m.joule l t then [Res.ok (Op.addHF l.id (m.joule l t))] else []).map (Op.gAt minR a b)).sum = 0 := by
    split_ifs <;> simp [Op.gAt]
  rw [this]
  simp [Op.gAt]

/-- between a prism and a line -/
theorem prism_line {minR : K} {m : PModel K} (hl : LinesOK (totalPrisms m.off) m.lines) {iniT : List K} {n : Nat} {l : Line K} {t : K}
    (hn : m.lines[n]? = some l) (ht : iniT[l.id]? = some t) {x : Nat} (hx : x < totalPrisms m.off) :
    ((m.lines.flatMap (m.lineOps iniT)).map (Op.gAt minR x l.id)).sum =
      ((l.front.count x : K) + l.back.count x) * (1 / max (1 / 2 * l.length / m.aveK l.mat t / l.area) minR) := by
  have hid := hl.id n l hn
  rw [sum_flat, sum_one _ _ n l hn, line_sum ht]
  · have key : ∀ nb, ((m.lineR l t nb).map (Op.gAt minR x l.id)).sum =
        if nb = x then 1 / max (1 / 2 * l.length / m.aveK l.mat t / l.area) minR else 0 := by
      intro nb
      unfold PModel.lineR
      by_cases hp : isPrima m.off nb
      · rw [if_pos hp]
        by_cases h : nb = x
        · subst h; simp [Op.gAt]
        · rw [if_neg h]
          simp only [List.map_cons, List.map_nil, List.sum_cons, List.sum_nil, add_zero, Op.gAt]
          rw [if_neg]
          omega
      · rw [if_neg hp]
        have hnb : ¬ nb < totalPrisms m.off := by simpa [isPrima] using hp
        rw [if_neg (show ¬ nb = x by omega)]
        split_ifs with h
        · split
          · simp only [List.map_cons, List.map_nil, List.sum_cons, List.sum_nil, add_zero, Op.gAt]
            rw [if_neg]
            omega
          · simp [Op.gAt]
        · rfl
    simp only [key, sum_count]
    ring
  · intro n' l' hn' hne
    have hid' := hl.id n' l' hn'
    apply sum_zero
    intro o ho
    apply gAt_zero
    intro v
    constructor
    · rintro rfl
      obtain ⟨nb, _, ⟨_, h1, h2⟩ | ⟨_, _, h1, h2⟩⟩ := lineOps_r ho <;> omega
    · rintro rfl
      obtain ⟨nb, _, ⟨h0, h1, h2⟩ | ⟨_, _, h1, h2⟩⟩ := lineOps_r ho <;> omega

/-- between two lines -/
theorem line_line {minR : K} {m : PModel K} (hl : LinesOK (totalPrisms m.off) m.lines) {iniT : List K} {n n' : Nat} {l l' : Line K} {t : K}
    (hn : m.lines[n]? = some l) (hn' : m.lines[n']? = some l') (hlt : n < n') (ht : iniT[l.id]? = some t) :
    ((m.lines.flatMap (m.lineOps iniT)).map (Op.gAt minR l.id l'.id)).sum =
      ((l.front.count l'.id : K) + l.back.count l'.id) *
        (1 / max (1 / 2 * l.length / m.aveK l.mat t / l.area + 1 / 2 * l'.length / m.aveK l'.mat t / l'.area) minR) := by
  have hid := hl.id n l hn
  have hid' := hl.id n' l' hn'
  rw [sum_flat, sum_one _ _ n l hn, line_sum ht]
  · have key : ∀ nb, ((m.lineR l t nb).map (Op.gAt minR l.id l'.id)).sum =
        if nb = l'.id then 1 / max (1 / 2 * l.length / m.aveK l.mat t / l.area + 1 / 2 * l'.length / m.aveK l'.mat t / l'.area) minR else 0 := by
      intro nb
      unfold PModel.lineR
      by_cases hp : isPrima m.off nb
      · have hnb : nb < totalPrisms m.off := by simpa [isPrima] using hp
        rw [if_pos hp, if_neg (show ¬ nb = l'.id by omega)]
        simp only [List.map_cons, List.map_nil, List.sum_cons, List.sum_nil, add_zero, Op.gAt]
        rw [if_neg]
        omega
      · have hnb : ¬ nb < totalPrisms m.off := by simpa [isPrima] using hp
        rw [if_neg hp]
        by_cases h : nb = l'.id
        · subst h
          have : lineLocalIndex m.off l'.id = n' := by unfold lineLocalIndex; rw [if_pos (by omega)]; omega
          rw [if_pos (by omega), this, hn']
          simp [Op.gAt]
        · rw [if_neg h]
          split_ifs with h2
          · split
            · simp only [List.map_cons, List.map_nil, List.sum_cons, List.sum_nil, add_zero, Op.gAt]
              rw [if_neg]
              omega
            · simp [Op.gAt]
          · rfl
    simp only [key, sum_count]
    ring
  · intro n'' l'' hn'' hne
    have hid'' := hl.id n'' l'' hn''
    apply sum_zero
    intro o ho
    apply gAt_zero
    intro v
    constructor
    · rintro rfl
      obtain ⟨nb, _, ⟨h0, h1, h2⟩ | ⟨_, _, h1, h2⟩⟩ := lineOps_r ho
      · have hnb : nb < totalPrisms m.off := by simpa [isPrima] using h0
        omega
      · omega
    · rintro rfl
      obtain ⟨nb, _, ⟨h0, h1, h2⟩ | ⟨_, _, h1, h2⟩⟩ := lineOps_r ho
      · have hnb : nb < totalPrisms m.off := by simpa [isPrima] using h0
        omega
      · omega

/-! ## conductances in the networks -/

theorem prism_part {minR : K} {m : PModel K} {mesh : Mesh} {layers : Nat} {info : Nat → Nat → Option (Cell K)} {wires : List (Wire K)}
    (hx : Extracted m mesh layers info wires) {iniT : List K} {net : Network K} (hb : m.build minR iniT = .ok (some net)) {a b : Nat}
    (hab : a < b) (hbt : totalPrisms m.off ≤ b) :
    conductance net a b = ((m.lines.flatMap (m.lineOps iniT)).map (Op.gAt minR a b)).sum := by
  obtain ⟨wf, _⟩ := extracted_wf hx
  obtain ⟨h1, h2, h3, h4⟩ := extracted_prisms hx
  rw [(run_values (build_run hb).2).2.2.2, conductance_new, zero_add, PModel.ops, List.map_append, List.map_append, List.sum_append, List.sum_append]
  have hblocks : (m.blocksOps.map (Op.gAt minR a b)).sum = 0 := by
    apply sum_zero
    intro o ho
    apply gAt_zero
    intro v
    exact ⟨fun h => blocksOps_r (h ▸ ho), fun h => blocksOps_r (h ▸ ho)⟩
  have hrange : ((m.rangeOps iniT (0, totalPrisms m.off)).map (Op.gAt minR a b)).sum = 0 := by
    apply sum_zero
    intro o ho
    unfold PModel.rangeOps at ho
    rw [List.mem_flatMap] at ho
    obtain ⟨j, hj, ho⟩ := ho
    rw [List.mem_range'_1] at hj
    have hj' : j < totalPrisms m.off := by simpa using hj.2
    have hp : m.prisms[j]? = some (m.prisms[j]'(by omega)) := List.getElem?_eq_getElem _
    obtain ⟨l, t, c, hc, _, hpp⟩ := h4 j _ hp
    apply gAt_zero
    intro v
    constructor
    · rintro rfl
      have := (elemOps_r hp ho).2.2
      rw [hpp] at this
      obtain ⟨l', t', c', hc', rfl, _⟩ := mem_links this
      have := gid_lt hc'
      omega
    · rintro rfl
      have := elemOps_r hp ho
      omega
  rw [hrange, hblocks, zero_add, add_zero]

theorem stack_part {minR : K} {m : SModel K} {g : Tris K} {meshes : List Mesh} {info : Nat → Nat → Option (Cell K)} {wires : List (Wire K)}
    (hx : FromMeshes m g meshes info wires) {iniT : List K} {net : Network K} (hb : m.build minR iniT = .ok (some net)) {a b : Nat}
    (hab : a < b) (hbt : totalPrisms m.off ≤ b) :
    conductance net a b = ((m.wires.lines.flatMap (m.wires.lineOps iniT)).map (Op.gAt minR a b)).sum := by
  obtain ⟨hlen, hst, hlines⟩ := fromMeshes_facts hx
  rw [(run_values (stack_run hb).2).2.2.2, conductance_new, zero_add, SModel.ops, stacked_blocks hst, List.append_nil, List.map_append, List.sum_append]
  have hrange : ((m.rangeOps iniT (0, totalPrisms m.off)).map (Op.gAt minR a b)).sum = 0 := by
    apply sum_zero
    intro o ho
    unfold SModel.rangeOps at ho
    rw [List.mem_flatMap] at ho
    obtain ⟨j, hj, ho⟩ := ho
    rw [List.mem_range'_1] at hj
    have hj' : j < totalPrisms m.off := by simpa using hj.2
    have hp : m.prisms[j]? = some (m.prisms[j]'(by omega)) := List.getElem?_eq_getElem _
    have key : ∀ x y v, o = .ok (.r x y v) → x = j ∧ y < totalPrisms m.off := by
      rintro x y v rfl
      cases ht : iniT[j]? with
      | none => unfold SModel.elemOps at ho; rw [hp, ht] at ho; simp at ho
      | some t =>
        rcases mem_stackElem hp ht ho with ⟨v, h⟩ | ⟨v, h⟩ | ⟨v, h⟩ | ⟨v, h⟩ | ⟨v, h⟩ | ⟨n, h⟩ | ⟨c, _, h⟩
        · cases h
        · cases h
        · cases h
        · cases h
        · cases h
        · rcases stack_mem_link h with ⟨h, _⟩ | ⟨n', q, t, _, hi, hq, _, h⟩
          · cases h
          · simp only [Res.ok.injEq, Op.r.injEq] at h
            obtain ⟨rfl, rfl, _⟩ := h
            exact ⟨rfl, by rw [← hlen]; exact (List.getElem?_eq_some_iff.1 hq).1⟩
        · rcases mem_contactOp h with ⟨h, _⟩ | ⟨q, tq, hi, hq, _, h⟩
          · cases h
          · simp only [Res.ok.injEq, Op.r.injEq] at h
            obtain ⟨rfl, rfl, _⟩ := h
            exact ⟨rfl, by rw [← hlen]; exact (List.getElem?_eq_some_iff.1 hq).1⟩
    apply gAt_zero
    intro v
    constructor
    · intro h
      have := key _ _ _ h
      omega
    · intro h
      have := key _ _ _ h
      omega
  rw [hrange, zero_add]
  rfl

theorem half_eq {m : PModel K} (w : Wire K) (j : Nat) (t : K) (off : List Nat) (b : Nat) :
    1 / 2 * (segLine off w b j).length / m.aveK (segLine off w b j).mat t / (segLine off w b j).area = half m.k w j t := by
  unfold segLine half PModel.aveK
  simp only
  rw [div_div]
  congr 1
  ring

/-- what the networks have for a wire, from the sums over the lines -/
theorem wire_values {minR : K} {m : PModel K} {ws : List (Wire K)} (hw : addWires m.off [] ws = .ok m.lines) (hends : ∀ w ∈ ws, w.Ends (totalPrisms m.off))
    {iniT : List K} {net : Network K}
    (hc : ∀ a b, a < b → totalPrisms m.off ≤ b → conductance net a b = ((m.lines.flatMap (m.lineOps iniT)).map (Op.gAt minR a b)).sum)
    {pre post : List (Wire K)} {w : Wire K} (hs : ws = pre ++ w :: post) {j : Nat} (hj : j < w.points - 1) {T : K}
    (hT : iniT[totalPrisms m.off + (segs pre + j)]? = some T) :
    (∀ x < totalPrisms m.off, conductance net x (totalPrisms m.off + (segs pre + j)) =
      ((if j = 0 then (w.start.count x : K) else 0) + if j + 1 = w.points - 1 then (w.fin.count x : K) else 0) * (1 / max (half m.k w j T) minR)) ∧
    (∀ n, segs pre + j < n → n < segs ws → conductance net (totalPrisms m.off + (segs pre + j)) (totalPrisms m.off + n) =
      if n = segs pre + j + 1 ∧ j + 1 < w.points - 1 then 1 / max (half m.k w j T + half m.k w (j + 1) T) minR else 0) := by
  have hl := addWires_ok hends (linesOK_nil _) hw
  obtain ⟨hlen, _, hseg⟩ := lines_eq m.off ws [] _ hw
  simp only [List.length_nil, zero_add] at hlen hseg
  have hg := hseg pre post w hs j hj
  have hid : (segLine m.off w (segs pre) j).id = totalPrisms m.off + (segs pre + j) := rfl
  have hend := hends w (by rw [hs]; simp)
  constructor
  · intro x hx
    have hp := prism_line (minR := minR) hl hg (t := T) (by rw [hid]; exact hT) hx
    rw [hid, half_eq] at hp
    rw [hc _ _ (by omega) (by omega), hp]
    congr 1
    have h1 : ((segLine m.off w (segs pre) j).front.count x : K) = if j = 0 then (w.start.count x : K) else 0 := by
      unfold segLine
      dsimp only
      by_cases h0 : j = 0
      · rw [if_pos h0, if_pos h0]
      · rw [if_neg h0, if_neg h0, List.count_eq_zero.2 (by simp; omega), Nat.cast_zero]
    have h2 : ((segLine m.off w (segs pre) j).back.count x : K) = if j + 1 = w.points - 1 then (w.fin.count x : K) else 0 := by
      unfold segLine
      dsimp only
      by_cases h0 : j + 1 = w.points - 1
      · rw [if_pos h0, if_pos h0]
      · rw [if_neg h0, if_neg h0, List.count_eq_zero.2 (by simp; omega), Nat.cast_zero]
    rw [h1, h2]
  · intro n hn hnl
    have hn' : m.lines[n]? = some (m.lines[n]'(by omega)) := List.getElem?_eq_getElem _
    have hidn := hl.id n _ hn'
    have hp := line_line (minR := minR) hl hg hn' hn (t := T) (by rw [hid]; exact hT)
    rw [hid, half_eq, hidn] at hp
    rw [hc _ _ (by omega) (by omega), hp]
    have h1 : (segLine m.off w (segs pre) j).front.count (totalPrisms m.off + n) = 0 := by
      rw [List.count_eq_zero]
      unfold segLine
      simp only
      split_ifs
      · intro h
        have := hend.2.1 _ h
        omega
      · simp
        omega
    have h2 : (segLine m.off w (segs pre) j).back.count (totalPrisms m.off + n) = if n = segs pre + j + 1 ∧ j + 1 < w.points - 1 then 1 else 0 := by
      unfold segLine
      simp only
      split_ifs with h3 h4 h4
      · omega
      · rw [List.count_eq_zero]
        intro h
        have := hend.2.2 _ h
        omega
      · rw [h4.1]
        simp
      · rw [List.count_eq_zero]
        simp
        omega
    rw [h1, h2]
    split_ifs with h4
    · obtain ⟨rfl, h4⟩ := h4
      have hg' := hseg pre post w hs (j + 1) h4
      rw [← Nat.add_assoc, hn'] at hg'
      simp only [Option.some.injEq] at hg'
      rw [hg', half_eq]
      simp
    · simp

/-- **C151, prism models.** Each wire is a chain of its segments: between a segment and a prism there is the conductance of half the
segment exactly for the first segment with the prisms at the start and the last one with those at the end; between two segments that
of half of both, exactly for segments next to each other of the same wire. -/
theorem c151_prism {minR : K} {m : PModel K} {mesh : Mesh} {layers : Nat} {info : Nat → Nat → Option (Cell K)} {ws : List (Wire K)}
    (hx : Extracted m mesh layers info ws) {iniT : List K} {net : Network K} (hb : m.build minR iniT = .ok (some net))
    {pre post : List (Wire K)} {w : Wire K} (hs : ws = pre ++ w :: post) {j : Nat} (hj : j < w.points - 1) {T : K}
    (hT : iniT[totalPrisms m.off + (segs pre + j)]? = some T) :
    (∀ x < totalPrisms m.off, conductance net x (totalPrisms m.off + (segs pre + j)) =
      ((if j = 0 then (w.start.count x : K) else 0) + if j + 1 = w.points - 1 then (w.fin.count x : K) else 0) * (1 / max (half m.k w j T) minR)) ∧
    (∀ n, segs pre + j < n → n < segs ws → conductance net (totalPrisms m.off + (segs pre + j)) (totalPrisms m.off + n) =
      if n = segs pre + j + 1 ∧ j + 1 < w.points - 1 then 1 / max (half m.k w j T + half m.k w (j + 1) T) minR else 0) :=
  wire_values hx.lines hx.ends (fun _ _ hab hbt => prism_part hx hb hab hbt) hs hj hT

/-- **C151, stackup models.** The same in stackup models. -/
theorem c151_stack {minR : K} {m : SModel K} {g : Tris K} {meshes : List Mesh} {info : Nat → Nat → Option (Cell K)} {ws : List (Wire K)}
    (hx : FromMeshes m g meshes info ws) {iniT : List K} {net : Network K} (hb : m.build minR iniT = .ok (some net))
    {pre post : List (Wire K)} {w : Wire K} (hs : ws = pre ++ w :: post) {j : Nat} (hj : j < w.points - 1) {T : K}
    (hT : iniT[totalPrisms m.off + (segs pre + j)]? = some T) :
    (∀ x < totalPrisms m.off, conductance net x (totalPrisms m.off + (segs pre + j)) =
      ((if j = 0 then (w.start.count x : K) else 0) + if j + 1 = w.points - 1 then (w.fin.count x : K) else 0) * (1 / max (half m.k w j T) minR)) ∧
    (∀ n, segs pre + j < n → n < segs ws → conductance net (totalPrisms m.off + (segs pre + j)) (totalPrisms m.off + n) =
      if n = segs pre + j + 1 ∧ j + 1 < w.points - 1 then 1 / max (half m.k w j T + half m.k w (j + 1) T) minR else 0) :=
  wire_values (m := m.wires) hx.lines hx.ends (fun _ _ hab hbt => stack_part hx hb hab hbt) hs hj hT

/-! ## a wire as a whole -/

omit [LinearOrder K] in
theorem sum_halves (f : Nat → K) (n : Nat) : f 0 + ((List.range n).map fun j => f j + f (j + 1)).sum + f n = 2 * ((List.range (n + 1)).map f).sum := by
  induction n with
  | zero => simp; ring
  | succ n ih =>
    rw [List.range_succ, List.map_append, List.sum_append, List.range_succ (n := n + 1), List.map_append, List.sum_append]
    simp only [List.map_cons, List.map_nil, List.sum_cons, List.sum_nil, add_zero]
    linear_combination ih

theorem series [IsStrictOrderedRing K] {minR : K} (hm : 0 ≤ minR) {tot b : Nat} {net : Network K} {k : Nat → K → Fin 3 → K} {w : Wire K} {N n : Nat} {T : K}
    (hn : w.points = n + 2) (hN : b + n < N)
    (h1 : ∀ j < n + 1, ∀ x < tot, conductance net x (tot + (b + j)) =
      ((if j = 0 then (w.start.count x : K) else 0) + if j + 1 = w.points - 1 then (w.fin.count x : K) else 0) * (1 / max (half k w j T) minR))
    (h2 : ∀ j < n + 1, ∀ i, b + j < i → i < N → conductance net (tot + (b + j)) (tot + i) =
      if i = b + j + 1 ∧ j + 1 < w.points - 1 then 1 / max (half k w j T + half k w (j + 1) T) minR else 0)
    (hr : ∀ j < n + 1, minR ≤ half k w j T) {x y : Nat} (hx : x < tot) (hy : y < tot) (hxs : w.start.count x = 1) (hyf : w.fin.count y = 1)
    (hxf : x ∉ w.fin) (hys : y ∉ w.start) :
    1 / conductance net x (tot + b) + ((List.range n).map fun j => 1 / conductance net (tot + (b + j)) (tot + (b + j + 1))).sum +
        1 / conductance net y (tot + (b + n)) =
      ((List.range (n + 1)).map w.length).sum / ((k w.mat T 0 + k w.mat T 1 + k w.mat T 2) / 3 * w.area) := by
  have e1 : conductance net x (tot + b) = 1 / half k w 0 T := by
    have := h1 0 (by omega) x hx
    rw [Nat.add_zero] at this
    rw [this, hxs, List.count_eq_zero.2 hxf, max_eq_left (hr 0 (by omega))]
    simp
  have e2 : conductance net y (tot + (b + n)) = 1 / half k w n T := by
    have := h1 n (by omega) y hy
    rw [this, hyf, List.count_eq_zero.2 hys, max_eq_left (hr n (by omega)), if_pos (show n + 1 = w.points - 1 by omega)]
    simp
  have e3 : ((List.range n).map fun j => 1 / conductance net (tot + (b + j)) (tot + (b + j + 1))) = (List.range n).map fun j => half k w j T + half k w (j + 1) T := by
    apply List.map_congr_left
    intro j hj
    rw [List.mem_range] at hj
    rw [h2 j (by omega) (b + j + 1) (by omega) (by omega), if_pos ⟨rfl, by omega⟩, max_eq_left, one_div_one_div]
    have h3 := hr j (by omega)
    have h4 := hr (j + 1) (by omega)
    linarith
  rw [e1, e2, e3, one_div_one_div, one_div_one_div, sum_halves (fun j => half k w j T)]
  have : ∀ l : List Nat, 2 * (l.map fun j => half k w j T).sum = (l.map w.length).sum / ((k w.mat T 0 + k w.mat T 1 + k w.mat T 2) / 3 * w.area) := by
    intro l
    induction l with
    | nil => simp
    | cons a l ih =>
      rw [List.map_cons, List.sum_cons, mul_add, ih, List.map_cons, List.sum_cons, add_div]
      congr 1
      unfold half
      ring
  exact this _

/-- **C151, a whole wire.** At one temperature the resistances along a wire, from the prism at its start to that at its end, add up to
length over mean conductivity over cross section, however it is divided into segments (that are not shorter than the least
resistance). -/
theorem c151_series [IsStrictOrderedRing K] {minR : K} (hm : 0 ≤ minR) {m : PModel K} {mesh : Mesh} {layers : Nat} {info : Nat → Nat → Option (Cell K)}
    {ws : List (Wire K)} (hx : Extracted m mesh layers info ws) {iniT : List K} {net : Network K} (hb : m.build minR iniT = .ok (some net))
    {pre post : List (Wire K)} {w : Wire K} (hs : ws = pre ++ w :: post) {n : Nat} (hn : w.points = n + 2) {T : K}
    (hT : ∀ j < n + 1, iniT[totalPrisms m.off + (segs pre + j)]? = some T) (hr : ∀ j < n + 1, minR ≤ half m.k w j T) {x y : Nat}
    (hxs : w.start.count x = 1) (hyf : w.fin.count y = 1) (hxf : x ∉ w.fin) (hys : y ∉ w.start) :
    1 / conductance net x (totalPrisms m.off + segs pre) +
        ((List.range n).map fun j => 1 / conductance net (totalPrisms m.off + (segs pre + j)) (totalPrisms m.off + (segs pre + j + 1))).sum +
        1 / conductance net y (totalPrisms m.off + (segs pre + n)) =
      ((List.range (n + 1)).map w.length).sum / ((m.k w.mat T 0 + m.k w.mat T 1 + m.k w.mat T 2) / 3 * w.area) := by
  have hv := fun j (hj : j < n + 1) => c151_prism hx hb hs (show j < w.points - 1 by omega) (hT j hj)
  have hend := hx.ends w (by rw [hs]; simp)
  refine series hm hn ?_ (fun j hj => (hv j hj).1) (fun j hj => (hv j hj).2) hr (hend.2.1 x ?_) (hend.2.2 y ?_) hxs hyf hxf hys
  · rw [hs]
    simp [segs]
    omega
  · exact List.count_pos_iff.1 (by omega)
  · exact List.count_pos_iff.1 (by omega)

/-- **C151, a whole wire of a stackup model.** -/
theorem c151_stack_series [IsStrictOrderedRing K] {minR : K} (hm : 0 ≤ minR) {m : SModel K} {g : Tris K} {meshes : List Mesh} {info : Nat → Nat → Option (Cell K)}
    {ws : List (Wire K)} (hx : FromMeshes m g meshes info ws) {iniT : List K} {net : Network K} (hb : m.build minR iniT = .ok (some net))
    {pre post : List (Wire K)} {w : Wire K} (hs : ws = pre ++ w :: post) {n : Nat} (hn : w.points = n + 2) {T : K}
    (hT : ∀ j < n + 1, iniT[totalPrisms m.off + (segs pre + j)]? = some T) (hr : ∀ j < n + 1, minR ≤ half m.k w j T) {x y : Nat}
    (hxs : w.start.count x = 1) (hyf : w.fin.count y = 1) (hxf : x ∉ w.fin) (hys : y ∉ w.start) :
    1 / conductance net x (totalPrisms m.off + segs pre) +
        ((List.range n).map fun j => 1 / conductance net (totalPrisms m.off + (segs pre + j)) (totalPrisms m.off + (segs pre + j + 1))).sum +
        1 / conductance net y (totalPrisms m.off + (segs pre + n)) =
      ((List.range (n + 1)).map w.length).sum / ((m.k w.mat T 0 + m.k w.mat T 1 + m.k w.mat T 2) / 3 * w.area) := by
  have hv := fun j (hj : j < n + 1) => c151_stack hx hb hs (show j < w.points - 1 by omega) (hT j hj)
  have hend := hx.ends w (by rw [hs]; simp)
  refine series hm hn ?_ (fun j hj => (hv j hj).1) (fun j hj => (hv j hj).2) hr (hend.2.1 x ?_) (hend.2.2 y ?_) hxs hyf hxf hys
  · rw [hs]
    simp [segs]
    omega
  · exact List.count_pos_iff.1 (by omega)
  · exact List.count_pos_iff.1 (by omega)

/-! ## segments of different temperature -/

theorem half_inj [IsStrictOrderedRing K] {k : Nat → K → Fin 3 → K} {w : Wire K} {j : Nat} {T T' : K} (hL : 0 < w.length j) (hA : 0 < w.area)
    (hk : 0 < k w.mat T 0 + k w.mat T 1 + k w.mat T 2) (hk' : 0 < k w.mat T' 0 + k w.mat T' 1 + k w.mat T' 2) :
    half k w j T = half k w j T' ↔ k w.mat T 0 + k w.mat T 1 + k w.mat T 2 = k w.mat T' 0 + k w.mat T' 1 + k w.mat T' 2 := by
  unfold half
  constructor
  · intro h
    have h1 : 0 < (k w.mat T 0 + k w.mat T 1 + k w.mat T 2) / 3 * w.area := by positivity
    have h2 : 0 < (k w.mat T' 0 + k w.mat T' 1 + k w.mat T' 2) / 3 * w.area := by positivity
    rw [div_eq_div_iff h1.ne' h2.ne'] at h
    have h3 := mul_left_cancel₀ (by positivity) h
    have h4 := mul_right_cancel₀ hA.ne' h3
    linarith
  · intro h
    rw [h]

/-- **C151, false of the code for segments of different temperature.** The resistance between two segments is that of half of both, each
at its own temperature, exactly if the material conducts equally at both temperatures: the builder takes the second segment at the
temperature of the first. -/
theorem c151_hot_refuted [IsStrictOrderedRing K] {minR : K} {m : PModel K} {mesh : Mesh} {layers : Nat} {info : Nat → Nat → Option (Cell K)}
    {ws : List (Wire K)} (hx : Extracted m mesh layers info ws) {iniT : List K} {net : Network K} (hb : m.build minR iniT = .ok (some net))
    {pre post : List (Wire K)} {w : Wire K} (hs : ws = pre ++ w :: post) {j : Nat} (hj : j + 1 < w.points - 1) {T T' : K}
    (hT : iniT[totalPrisms m.off + (segs pre + j)]? = some T) (hL : 0 < w.length (j + 1)) (hA : 0 < w.area)
    (hk : 0 < m.k w.mat T 0 + m.k w.mat T 1 + m.k w.mat T 2) (hk' : 0 < m.k w.mat T' 0 + m.k w.mat T' 1 + m.k w.mat T' 2)
    (hr : minR ≤ half m.k w j T + half m.k w (j + 1) T) :
    1 / conductance net (totalPrisms m.off + (segs pre + j)) (totalPrisms m.off + (segs pre + j + 1)) = half m.k w j T + half m.k w (j + 1) T' ↔
      m.k w.mat T 0 + m.k w.mat T 1 + m.k w.mat T 2 = m.k w.mat T' 0 + m.k w.mat T' 1 + m.k w.mat T' 2 := by
  have h := (c151_prism hx hb hs (show j < w.points - 1 by omega) hT).2 (segs pre + j + 1) (by omega) (by rw [hs]; simp [segs]; omega)
  rw [h, if_pos ⟨rfl, hj⟩, max_eq_left hr, one_div_one_div, add_right_inj]
  exact half_inj hL hA hk hk'

/-- **C151, false of the code for segments of different temperature, in stackup models.** -/
theorem c151_stack_hot_refuted [IsStrictOrderedRing K] {minR : K} {m : SModel K} {g : Tris K} {meshes : List Mesh} {info : Nat → Nat → Option (Cell K)}
    {ws : List (Wire K)} (hx : FromMeshes m g meshes info ws) {iniT : List K} {net : Network K} (hb : m.build minR iniT = .ok (some net))
    {pre post : List (Wire K)} {w : Wire K} (hs : ws = pre ++ w :: post) {j : Nat} (hj : j + 1 < w.points - 1) {T T' : K}
    (hT : iniT[totalPrisms m.off + (segs pre + j)]? = some T) (hL : 0 < w.length (j + 1)) (hA : 0 < w.area)
    (hk : 0 < m.k w.mat T 0 + m.k w.mat T 1 + m.k w.mat T 2) (hk' : 0 < m.k w.mat T' 0 + m.k w.mat T' 1 + m.k w.mat T' 2)
    (hr : minR ≤ half m.k w j T + half m.k w (j + 1) T) :
    1 / conductance net (totalPrisms m.off + (segs pre + j)) (totalPrisms m.off + (segs pre + j + 1)) = half m.k w j T + half m.k w (j + 1) T' ↔
      m.k w.mat T 0 + m.k w.mat T 1 + m.k w.mat T 2 = m.k w.mat T' 0 + m.k w.mat T' 1 + m.k w.mat T' 2 := by
  have h := (c151_stack hx hb hs (show j < w.points - 1 by omega) hT).2 (segs pre + j + 1) (by omega) (by rw [hs]; simp [segs]; omega)
  rw [h, if_pos ⟨rfl, hj⟩, max_eq_left hr, one_div_one_div, add_right_inj]
  exact half_inj hL hA hk hk'

/-! ## example -/

/-- the example of C63 with a material that conducts less when hot, and worse across than along -/
def exHot : PModel ℚ := { exModel with k := fun mat T d => if mat = 1 then 4 else if d = 2 then 1 else if T < 50 then 4 else 1 }

theorem exHot_extracted : Extracted exHot exMesh 2 exInfo [exWire] := ⟨exModel_extracted.prisms, exModel_extracted.lines, exModel_extracted.ends⟩

/-- the hypotheses of the theorems: both segments at 25 degrees; the conductivity is 3 on average -/
example : (exHot.build (1 / 1000) [25, 25, 25, 25, 25]).bind (fun r => .ok (r.map fun net =>
    (conductance net 0 3, conductance net 3 4, conductance net 2 4, conductance net 0 4, half exHot.k exWire 0 25))) =
    .ok (some (6, 3, 6, 0, 1 / 6)) := by decide +kernel

/-- the wire in all: length 2 over 3 -/
example : ∃ net, exHot.build (1 / 1000) [25, 25, 25, 25, 25] = .ok (some net) ∧
    1 / conductance net 0 3 + 1 / conductance net 3 4 + 1 / conductance net 2 4 = 2 / 3 := by
  obtain ⟨net, hb, _⟩ := c63_builds exHot_extracted (1 / 1000) (iniT := [25, 25, 25, 25, 25]) rfl
  refine ⟨net, hb, ?_⟩
  have := c151_series (by norm_num) exHot_extracted hb (pre := []) (post := []) rfl (n := 1) rfl (T := 25)
    (by intro j hj; have : j = 0 ∨ j = 1 := by omega
        rcases this with rfl | rfl <;> rfl) (by intro j _; rw [show half exHot.k exWire j 25 = half exHot.k exWire 0 25 from rfl]; decide +kernel) (x := 0) (y := 2) rfl rfl (by simp [exWire]) (by simp [exWire])
  rw [show ((List.range (1 + 1)).map exWire.length).sum / ((exHot.k exWire.mat 25 0 + exHot.k exWire.mat 25 1 + exHot.k exWire.mat 25 2) / 3 * exWire.area) = 2 / 3
    by decide +kernel] at this
  rw [← this]
  simp [segs, totalPrisms, exHot, exModel, List.range_succ]

/-- segments of 25 and 75 degrees: the resistance is `1 / 3` instead of `2 / 3`, and in the other order `1` -/
example : (exHot.build (1 / 1000) [25, 25, 25, 25, 75]).bind (fun r => .ok (r.map fun net =>
    (conductance net 3 4, half exHot.k exWire 0 25 + half exHot.k exWire 1 75))) = .ok (some (3, 2 / 3)) ∧
    (exHot.build (1 / 1000) [25, 25, 25, 75, 25]).bind (fun r => .ok (r.map fun net => conductance net 3 4)) = .ok (some 1) := by decide +kernel

end Ecad.WireT
