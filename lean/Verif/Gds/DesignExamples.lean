import Verif.Gds.DesignFlatProps
/-!
Examples for C132.
-/
namespace Ecad.GdsD
open Gds (Name Elem Struct Lib)
open Hier (noNet)

/-- example: `A` has a triangle, a path and a text; `B` has two references to `A` and one to a structure that is not there; `C` has a reference to
`B` and a box -/
def exFile : Lib :=
  ⟨600, [2024, 1], [76], ⟨false, 62, 0x4189374bc6a7f0⟩, ⟨false, 57, 0x44b82fa09b5a54⟩,
    [⟨[2024], [67], [⟨.sref, [.sname [66], .xy [(100, -7)]]⟩, ⟨.box, [.layer 9, .boxType 0, .xy [(0, 0), (1, 0), (1, 1), (0, 0)]]⟩]⟩,
     ⟨[2024], [65], [⟨.boundary, [.layer 3, .dataType 0, .xy [(0, 0), (10, 0), (0, 5)]]⟩,
        ⟨.path, [.layer 4, .width 2, .xy [(0, 0), (3, 4)]]⟩, ⟨.text, [.layer 3, .string [72], .xy [(4, 4)]]⟩]⟩,
     ⟨[2024], [66], [⟨.sref, [.sname [65], .strans 0, .xy [(1, 2)]]⟩, ⟨.sref, [.sname [90], .xy [(5, 5)]]⟩,
        ⟨.sref, [.sname [65], .angle ⟨false, 64, 0⟩, .xy [(20, 30)]]⟩]⟩]⟩

/-- its heights -/
def exRank (n : Name) : Nat := if n = [67] then 2 else if n = [66] then 1 else 0

/-- a text of a layer map file: `M1 metal 3 0 0.5` and `V via 9 0 2` and `M2 metal 3 0 1` would put the triangle on two layers -/
def exRows : List Gds.LayerRow := [⟨[77, 49], true, 3, 0, 1 / 2⟩, ⟨[86], false, 9, 0, 2⟩, ⟨[77, 50], true, 3, 0, 1⟩]

open Classical in
/-- the outline of a polyline of two points at a rational distance: its start, moved backwards by the width; else nothing -/
noncomputable def backStroke (pts : List (ℚ × ℚ)) (w : ℚ) : List (ℚ × ℚ) :=
  match pts with
  | [p, q] =>
    if h : ∃ r : ℚ, 0 < r ∧ r ^ 2 = (q.1 - p.1) ^ 2 + (q.2 - p.2) ^ 2 then
      [(p.1 - w / h.choose * (q.1 - p.1), p.2 - w / h.choose * (q.2 - p.2))] else []
  | _ => []

theorem backStroke_eq {p q : ℚ × ℚ} {r : ℚ} (hr : 0 < r) (h : r ^ 2 = (q.1 - p.1) ^ 2 + (q.2 - p.2) ^ 2) (w : ℚ) :
    backStroke [p, q] w = [(p.1 - w / r * (q.1 - p.1), p.2 - w / r * (q.2 - p.2))] := by
  have hex : ∃ r : ℚ, 0 < r ∧ r ^ 2 = (q.1 - p.1) ^ 2 + (q.2 - p.2) ^ 2 := ⟨r, hr, h⟩
  have hc : hex.choose = r := by
    have := hex.choose_spec
    exact (pow_left_inj₀ this.1.le hr.le (by norm_num : (2 : Nat) ≠ 0)).1 (this.2.trans h.symm)
  simp only [backStroke, dif_pos hex, hc]

/-- a way of drawing paths that meets the assumption and depends on the width -/
theorem backStroke_ok (f : ℚ × ℚ → ℚ → Nat → List (ℚ × ℚ)) : (⟨f, backStroke⟩ : Shp.Lib ℚ).StrokeOK := by
  intro m k pts w hk h1 h2 h3
  simp only
  match pts with
  | [] => rfl
  | [p] => rfl
  | p :: q :: s :: t => rfl
  | [p, q] =>
    have hdist : ((m.act q).1 - (m.act p).1) ^ 2 + ((m.act q).2 - (m.act p).2) ^ 2 = k ^ 2 * ((q.1 - p.1) ^ 2 + (q.2 - p.2) ^ 2) := by
      simp only [Shp.Aff.act]
      linear_combination (q.1 - p.1) ^ 2 * h1 + (q.2 - p.2) ^ 2 * h2 + 2 * (q.1 - p.1) * (q.2 - p.2) * h3
    by_cases hex : ∃ r : ℚ, 0 < r ∧ r ^ 2 = (q.1 - p.1) ^ 2 + (q.2 - p.2) ^ 2
    · obtain ⟨r, hr, e⟩ := hex
      rw [backStroke_eq hr e]
      simp only [List.map_cons, List.map_nil]
      rw [backStroke_eq (r := k * r) (by positivity) (by rw [hdist, ← e]; ring)]
      have : k * w / (k * r) = w / r := by rw [mul_div_mul_left _ _ hk.ne']
      rw [this]
      simp only [List.cons.injEq, and_true]
      refine Prod.ext ?_ ?_ <;> simp only [Shp.Aff.act] <;> ring
    · have hno : ¬ ∃ r : ℚ, 0 < r ∧ r ^ 2 = ((m.act q).1 - (m.act p).1) ^ 2 + ((m.act q).2 - (m.act p).2) ^ 2 := by
        rintro ⟨r, hr, e⟩
        refine hex ⟨r / k, by positivity, ?_⟩
        rw [div_pow, e, hdist, mul_comm, mul_div_assoc, div_self (by positivity), mul_one]
      simp only [backStroke, List.map_cons, List.map_nil, dif_neg hex, dif_neg hno]

/-- the hypotheses of `c132_flat_partial` -/
example : (exFile.structs.map Struct.name).Nodup ∧ (∀ s ∈ exFile.structs, ∀ e ∈ s.elems, e.Ok) ∧ (∀ r ∈ exFile.recs, r.Fits) ∧
    (∀ s ∈ exFile.structs, ∀ e ∈ s.elems, Drawable e) ∧ Straight exFile ∧
    (∀ s ∈ exFile.structs, ∀ e ∈ s.elems, e.kind = .sref → exRank e.sname < exRank s.name) := by
  have hall : ∀ s ∈ exFile.structs, ∀ e ∈ s.elems, e.Ok ∧ Drawable e ∧ e.kind ≠ .aref ∧
      (e.kind = .sref → e.angle = 0 ∧ ¬ mirrored e ∧ e.mag = 1 ∧ exRank e.sname < exRank s.name) := by
    intro s hs e he
    unfold Gds.Elem.Ok Drawable
    simp only [exFile, List.mem_cons, List.not_mem_nil, or_false] at hs
    rcases hs with rfl | rfl | rfl <;> simp only [List.mem_cons, List.not_mem_nil, or_false] at he
    · rcases he with rfl | rfl <;> decide +kernel
    · rcases he with rfl | rfl | rfl <;> decide +kernel
    · rcases he with rfl | rfl | rfl <;> decide +kernel
  refine ⟨by decide, fun s hs e he => (hall s hs e he).1, ?_, fun s hs e he => (hall s hs e he).2.1, ⟨fun s hs e he => (hall s hs e he).2.2.1,
    fun s hs e he h => ⟨((hall s hs e he).2.2.2 h).1, ((hall s hs e he).2.2.2 h).2.1⟩, .inl fun s hs e he h => ((hall s hs e he).2.2.2 h).2.2.1⟩,
    fun s hs e he h => ((hall s hs e he).2.2.2 h).2.2.2⟩
  intro r hr
  simp only [exFile, Lib.recs, Gds.Struct.recs, Gds.Elem.recs, Gds.Attr.recs, List.flatMap_cons, List.flatMap_nil, List.append_nil, List.cons_append,
    List.nil_append, List.mem_cons, List.not_mem_nil, or_false] at hr
  repeat' (rcases hr with rfl | hr)
  all_goals first
    | (subst hr; refine ⟨by decide, ?_⟩; simp [Gds.Real8.Fits])
    | (refine ⟨by decide, ?_⟩; simp [Gds.Real8.Fits])

/-- what the structure `C` of the file draws -/
example : drawn (fun pts _ => pts) (fun _ => (1, 0)) exFile 3 [67] =
    [(9, [(0, 0), (1, 0), (1, 1), (0, 0)]), (3, [(101, -5), (111, -5), (101, 0)]), (4, [(101, -5), (104, -1)]),
     (3, [(120, 23), (130, 23), (120, 28)]), (4, [(120, 23), (123, 27)])] := by decide +kernel

/-- its texts: the one of `A`, by the two chains of references -/
example : (texts (fun _ => (1, 0)) exFile 3 [67]).map (fun x => (x.1, x.2.1, x.2.2 (0, 0))) = [(3, [72], (101, -5)), (3, [72], (120, 23))] := by
  decide +kernel

/-- its references to structures that are there -/
example : exFile.structs.map (fun s => (s.elems.filter fun e => decide (e.kind = .sref ∧ e.sname ∈ exFile.structs.map Struct.name)).map fun e => str e.sname) =
    [["B"], [], ["A", "A"]] := by decide +kernel

/-- a file the reader takes: one record of an unknown kind -/
example : ∃ d, Gds.readFile 8 100 [0, 4, 99, 0] = some (.ok (d, true)) := ⟨_, rfl⟩

/-- a layer map file with a line of two items -/
example : ¬ Gds.Idle [77, 32, 77] ∧ ∀ ts, Gds.Items [77, 32, 77] ts → ts.length ≠ 5 :=
  ⟨by unfold Gds.Idle; decide, (Gds.c112_refuse _).1 (by decide +kernel)⟩

/-- on which layers: those of the rows with the number -/
example : numbers (exRows.map Gds.LayerRow.layerId) 3 = [0, 2] ∧ numbers (exRows.map Gds.LayerRow.layerId) 4 = [] := by decide +kernel

/-- a path whose outline depends on the width, seen through a reference of magnification 2 -/
example : let e : Elem := ⟨.path, [.layer 4, .width 10, .xy [(0, 0), (3, 4)]]⟩
    let r : Elem := ⟨.sref, [.sname [65], .mag ⟨false, 65, 0x20000000000000⟩, .xy [(1, 2)]]⟩
    e.kind = .path ∧ Drawable e ∧ 0 < r.mag ∧ r.angle = 0 ∧ ¬ mirrored r ∧ Gds.idsOf [(4, [7])] e.layer = [7] ∧
      backStroke (e.points.map pt) (e.width / r.mag) ≠ backStroke (e.points.map pt) e.width := by
  refine ⟨rfl, by unfold Drawable; decide +kernel, by decide +kernel, by decide +kernel, by decide +kernel, by decide +kernel, ?_⟩
  have e1 : (⟨.path, [.layer 4, .width 10, .xy [(0, 0), (3, 4)]]⟩ : Elem).points.map pt = [(0, 0), (3, 4)] := by decide +kernel
  have e2 : (⟨.path, [.layer 4, .width 10, .xy [(0, 0), (3, 4)]]⟩ : Elem).width = 10 := by decide +kernel
  have e3 : (⟨.sref, [.sname [65], .mag ⟨false, 65, 0x20000000000000⟩, .xy [(1, 2)]]⟩ : Elem).mag = 2 := by decide +kernel
  rw [e1, e2, e3, backStroke_eq (r := 5) (by norm_num) (by norm_num), backStroke_eq (r := 5) (by norm_num) (by norm_num)]
  norm_num

/-- a circular library: `A` refers to `B` and `B` to `A` -/
example : let l : Lib := ⟨600, [], [76], ⟨false, 62, 1⟩, ⟨false, 57, 1⟩,
      [⟨[], [65], [⟨.sref, [.sname [66], .xy [(1, 1)]]⟩]⟩, ⟨[], [66], [⟨.sref, [.sname [65], .xy [(2, 2)]]⟩]⟩, ⟨[], [67], []⟩]⟩
    (l.structs.map Struct.name).Nodup ∧
    ∀ s ∈ l.structs, s.name ≠ [67] → ∃ e ∈ s.elems, e.kind = .sref ∧ ∃ t ∈ l.structs, t.name = e.sname ∧ t.name ≠ [67] := by
  refine ⟨by decide, ?_⟩
  intro s hs hn
  simp only [List.mem_cons, List.not_mem_nil, or_false] at hs
  rcases hs with rfl | rfl | rfl
  · exact ⟨_, List.mem_cons_self .., rfl, ⟨[], [66], [⟨.sref, [.sname [65], .xy [(2, 2)]]⟩]⟩, by simp, by decide, by decide⟩
  · exact ⟨_, List.mem_cons_self .., rfl, ⟨[], [65], [⟨.sref, [.sname [66], .xy [(1, 1)]]⟩]⟩, by simp, by decide, by decide⟩
  · exact absurd rfl hn

/-- a reference turned by 90 degrees: the file says that (1, 0) goes to (0, 1) -/
example : let r : Elem := ⟨.sref, [.sname [65], .angle ⟨false, 66, 0x5a000000000000⟩, .xy [(0, 0)]]⟩
    r.mag ≠ 0 ∧ r.angle = 90 ∧ ¬ mirrored r ∧ placing (fun a => if a = 90 then (0, 1) else (1, 0)) r (pt (0, 0)) (1, 0) = (0, 1) := by
  decide +kernel

end Ecad.GdsD
