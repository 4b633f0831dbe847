import Verif.Xfl.ImportTotalProps
/-!
The database made of an XFL file (C131): the order of the sections, files that are refused, files without units or scale, unknown units.
-/
namespace Ecad.XflI
open Ecad.Xfl Ecad.XflP
open Shp (Aff Shape)

variable {ang : ℚ → Int} {lib : Lib ℚ} {div : Nat} {R : Int → ℚ × ℚ}

/-! ### the order of the sections -/

/-- the kinds of sections that matter for the database -/
inductive Kind
  | unit | scale | material | layer | shape | board | padstack | via | net | route
  deriving DecidableEq

/-- the kind of a section; none for those that do not matter -/
def kind : PSec → Option Kind
  | .unit _ => some .unit
  | .scale _ => some .scale
  | .material _ => some .material
  | .layer _ => some .layer
  | .shape _ => some .shape
  | .board _ => some .board
  | .padstack _ => some .padstack
  | .via _ => some .via
  | .net _ => some .net
  | .route _ => some .route
  | _ => none

theorem flatMap_kind {α : Type} (k : Kind) (f : PSec → List α) (hf : ∀ x, kind x ≠ some k → f x = []) (F : List PSec) :
    F.flatMap f = (F.filter fun x => kind x = some k).flatMap f := by
  induction F with
  | nil => rfl
  | cons x F ih =>
    rw [List.flatMap_cons, List.filter_cons, ih]
    by_cases hk : kind x = some k
    · simp [hk]
    · simp [hk, hf x hk]

theorem filterMap_kind {α : Type} (k : Kind) (f : PSec → Option α) (hf : ∀ x, kind x ≠ some k → f x = none) (F : List PSec) :
    F.filterMap f = (F.filter fun x => kind x = some k).filterMap f := by
  induction F with
  | nil => rfl
  | cons x F ih =>
    rw [List.filterMap_cons, List.filter_cons, ih]
    by_cases hk : kind x = some k
    · simp [hk, List.filterMap_cons]
    · simp [hk, hf x hk]

/-- **C131**: the sections may come in any order.  Two files whose sections of each kind come in the same order give the same database
(and sections of other kinds may be put anywhere). -/
theorem c131_order {F F' : List PSec} (hF : ∀ x ∈ F, WfSec x) (hF' : ∀ x ∈ F', WfSec x) {s g s' g' : Str} (hs : Writes true (F.flatMap secToks) s)
    (hg : Gap g) (hs' : Writes true (F'.flatMap secToks) s') (hg' : Gap g')
    (h : ∀ k, (F.filter fun x => kind x = some k) = F'.filter fun x => kind x = some k) :
    create ang lib div R false (some (s ++ g)) = create ang lib div R false (some (s' ++ g')) := by
  rw [create_file ang lib div R F hF s g hs hg, create_file ang lib div R F' hF' s' g' hs' hg']
  have fm : ∀ {α : Type} (k : Kind) (f : PSec → List α), (∀ x, kind x ≠ some k → f x = []) → F.flatMap f = F'.flatMap f := by
    intro α k f hf
    rw [flatMap_kind k f hf F, flatMap_kind k f hf F', h]
  have fo : ∀ {α : Type} (k : Kind) (f : PSec → Option α), (∀ x, kind x ≠ some k → f x = none) → F.filterMap f = F'.filterMap f := by
    intro α k f hf
    rw [filterMap_kind k f hf F, filterMap_kind k f hf F', h]
  have e1 : inchOf F = inchOf F' := congrArg List.getLast? (fo .unit _ fun x hx => by cases x <;> first | rfl | exact absurd rfl hx)
  have e2 : scaleOf F = scaleOf F' := congrArg List.getLast? (fo .scale _ fun x hx => by cases x <;> first | rfl | exact absurd rfl hx)
  have e3 : boardOf F = boardOf F' := congrArg List.getLast? (fo .board _ fun x hx => by cases x <;> first | rfl | exact absurd rfl hx)
  have e4 : netsOf F = netsOf F' := fm .net _ fun x hx => by cases x <;> first | rfl | exact absurd rfl hx
  have e5 : viasOf F = viasOf F' := fm .via _ fun x hx => by cases x <;> first | rfl | exact absurd rfl hx
  have e6 : layersOf F = layersOf F' := fm .layer _ fun x hx => by cases x <;> first | rfl | exact absurd rfl hx
  have e7 : routesOf F = routesOf F' := fm .route _ fun x hx => by cases x <;> first | rfl | exact absurd rfl hx
  have e8 : materialsOf F = materialsOf F' := fm .material _ fun x hx => by cases x <;> first | rfl | exact absurd rfl hx
  have e9 : padstacksOf F = padstacksOf F' := fm .padstack _ fun x hx => by cases x <;> first | rfl | exact absurd rfl hx
  have e10 : templatesOf F = templatesOf F' := fm .shape _ fun x hx => by cases x <;> first | rfl | exact absurd rfl hx
  have hb : ∀ inch sc, build ang lib div R (dbOf F) inch sc = build ang lib div R (dbOf F') inch sc := by
    intro inch sc
    simp only [build, dbOf, e3, e4, e5, e6, e7, e8, e9, e10]
  simp only [e1, e2, hb]

/-! ### files that are refused -/

/-- **C131**: no database is made if there is one of the name, if the file cannot be opened, or if the reader does not accept it; a file
whose last line is a comment without an end of line is not accepted, whatever it lists. -/
theorem c131_refused : (∀ file, create ang lib div R true file = .ok none) ∧ create ang lib div R false none = .ok none ∧
    (∀ s, (read s).2 = false → create ang lib div R false (some s) = .ok none) ∧
    ∀ (F : List PSec), (∀ x ∈ F, WfSec x) → ∀ s g t : Str, Writes true (F.flatMap secToks) s → Gap g → (∀ c ∈ t, c ≠ '\n' ∧ c ≠ '\r') →
      create ang lib div R false (some (s ++ (g ++ '#' :: t))) = .ok none := by
  refine ⟨fun _ => rfl, rfl, ?_, ?_⟩
  · intro s h
    simp [create, h]
  · intro F hF s g t hs hg ht
    simp [create, c107_comment_refuted F hF s g t hs hg ht]

/-! ### what goes wrong -/

theorem unit_kept (evs : List (Ev ℚ)) (d : Db) (h : ∀ b, Ev.unit b ∉ evs) : (evs.foldl handle d).unit = d.unit := by
  induction evs generalizing d with
  | nil => rfl
  | cons e evs ih =>
    rw [List.foldl_cons, ih _ fun b hb => h b (List.mem_cons_of_mem _ hb)]
    cases e with
    | unit b => exact absurd List.mem_cons_self (h b)
    | _ => rfl

theorem scale_kept (evs : List (Ev ℚ)) (d : Db) (h : ∀ b, Ev.scale b ∉ evs) : (evs.foldl handle d).scale = d.scale := by
  induction evs generalizing d with
  | nil => rfl
  | cons e evs ih =>
    rw [List.foldl_cons, ih _ fun b hb => h b (List.mem_cons_of_mem _ hb)]
    cases e with
    | scale b => exact absurd List.mem_cons_self (h b)
    | _ => rfl

/-- **C131, refuted**: any text that ends with a line, be it an XFL file or not, is accepted; if no units or no scale were read from it, units
or scale that were never set are used. -/
theorem c131_unset_refuted (s : Str) (h : (∀ b, Ev.unit b ∉ (read (s ++ ['\n'])).1) ∨ ∀ q, Ev.scale q ∉ (read (s ++ ['\n'])).1) :
    create ang lib div R false (some (s ++ ['\n'])) = .ub := by
  have ha := c107_accepts_refuted s
  simp only [create, Bool.false_eq_true, if_false, ha, Bool.not_true]
  rcases h with h | h
  · simp only [unit_kept _ _ h]
  · simp only [scale_kept _ _ h]
    cases (List.foldl handle {} (read (s ++ ['\n'])).1).unit <;> rfl

/-- **C131, refuted**: the word after `.unit` is only compared with inch.  Of two files that differ in this word both give the same database
if neither is inch: mils, micrometres and centimetres are taken for millimetres. -/
theorem c131_units_refuted {A B : List PSec} {t t' : Str} (hF : ∀ x ∈ A ++ .unit t :: B, WfSec x) (hF' : ∀ x ∈ A ++ .unit t' :: B, WfSec x)
    (ht : t.map Char.toLower ≠ "inch".toList) (ht' : t'.map Char.toLower ≠ "inch".toList) {s g s' g' : Str}
    (hs : Writes true ((A ++ .unit t :: B).flatMap secToks) s) (hg : Gap g) (hs' : Writes true ((A ++ .unit t' :: B).flatMap secToks) s') (hg' : Gap g') :
    create ang lib div R false (some (s ++ g)) = create ang lib div R false (some (s' ++ g')) := by
  rw [create_file ang lib div R _ hF s g hs hg, create_file ang lib div R _ hF' s' g' hs' hg']
  have e : dbOf (A ++ .unit t :: B) = dbOf (A ++ .unit t' :: B) := by
    have e1 : (t.map Char.toLower == "inch".toList) = false := by simpa using ht
    have e2 : (t'.map Char.toLower == "inch".toList) = false := by simpa using ht'
    simp only [dbOf, inchOf, scaleOf, boardOf, netsOf, viasOf, partsOf, layersOf, routesOf, materialsOf, padstacksOf, templatesOf, List.filterMap_append,
      List.flatMap_append, List.filterMap_cons, List.flatMap_cons, e1, e2]
  have e1 : inchOf (A ++ .unit t :: B) = inchOf (A ++ .unit t' :: B) := congrArg Db.unit e
  have e2 : scaleOf (A ++ .unit t :: B) = scaleOf (A ++ .unit t' :: B) := congrArg Db.scale e
  rw [e, e1, e2]

/-! ### examples -/

/-- a file with a layer, a net and a path -/
def exF : List PSec :=
  [.unit "mm".toList, .scale 2, .layer [⟨"a".toList, 3, 'S', "m".toList, "d".toList⟩], .net [⟨none, [], ⟨"n".toList, 'S', 1, []⟩⟩],
    .route [("n".toList, [(⟨none, true⟩, .path 1 2 [.pt (3, 4), .pt (5, 6)])])]]

def exS : Str := " .unit mm .scale 2 .layer \"a\" 3 S \"m\" \"d\" .end layer .netlist \"n\" S 1 { } .end netlist .route \"n\" { path 1 2 { 3 4 5 6 } } .end route".toList

theorem ex_wf : ∀ x ∈ exF, WfSec x := by
  intro x hx
  simp only [exF, List.mem_cons, List.not_mem_nil, or_false] at hx
  rcases hx with rfl | rfl | rfl | rfl | rfl
  · exact ⟨'m', ['m'], rfl, by decide, by decide⟩
  · trivial
  · intro y hy
    simp only [List.mem_cons, List.not_mem_nil, or_false] at hy
    subst hy
    exact ⟨⟨by decide, by decide⟩, by decide, ⟨by decide, by decide⟩, ⟨by decide, by decide⟩⟩
  · intro y hy
    simp only [List.mem_cons, List.not_mem_nil, or_false] at hy
    subst hy
    exact ⟨⟨⟨by decide, by decide⟩, by decide, by simp⟩, rfl⟩
  · intro y hy
    simp only [List.mem_cons, List.not_mem_nil, or_false] at hy
    subst hy
    refine ⟨⟨by decide, by decide⟩, ?_, ?_, trivial⟩
    · intro a ha; simp only [List.mem_cons, List.not_mem_nil, or_false] at ha; subst ha
      intro x hx; simp only [List.mem_cons, List.not_mem_nil, or_false] at hx; subst hx; trivial
    · intro a ha; simp only [List.mem_cons, List.not_mem_nil, or_false] at ha; subst ha
      rintro ⟨l1, x, l2, e, _, hx⟩
      have : x ∈ [Seg.pt ((5 : ℚ), (6 : ℚ))] := by rw [e]; simp
      simp only [List.mem_cons, List.not_mem_nil, or_false] at this
      subst this
      exact hx

set_option maxRecDepth 8000 in
theorem ex_writes : Writes true (exF.flatMap secToks) exS := by
  have hq : ∀ d : Char, d.isDigit = true → ∀ v : Int, v = (Nat.ofDigitChars 10 [d] 0 : Nat) → v < 10 → NumText [d] v := fun d hd v hv h => intText_num (ex_int d hd v hv h)
  refine ex_tok (u := "unit".toList) (by show _ = _; decide) rfl (ex_tok (u := ['m']) rfl rfl (ex_tok (u := "scale".toList) (by show _ = _; decide) rfl
    (ex_tok (u := []) (by have := hq '2' rfl 2 rfl (by decide); exact_mod_cast this) rfl ?_)))
  refine ex_tok (u := "layer".toList) (by show _ = _; decide) rfl (ex_tok (u := "a\"".toList) rfl rfl (ex_tok (u := []) (by have := hq '3' rfl 3 rfl (by decide); exact_mod_cast this) rfl
    (ex_tok (u := []) rfl rfl (ex_tok (u := "m\"".toList) rfl rfl (ex_tok (u := "d\"".toList) rfl rfl (ex_tok (u := "end layer".toList) (by show _ = _; decide) rfl ?_))))))
  refine ex_tok (u := "netlist".toList) (by show _ = _; decide) rfl (ex_tok (u := "n\"".toList) rfl rfl (ex_tok (u := []) rfl rfl (ex_tok (u := []) (ex_int '1' rfl _ rfl (by decide)) rfl
    (ex_tok (u := []) rfl rfl (ex_tok (u := []) rfl rfl (ex_tok (u := "end netlist".toList) (by show _ = _; decide) rfl ?_))))))
  refine ex_tok (u := "route".toList) (by show _ = _; decide) rfl (ex_tok (u := "n\"".toList) rfl rfl (ex_tok (u := []) rfl rfl (ex_tok (u := "ath".toList) (by show _ = _; decide) rfl ?_)))
  refine ex_tok (u := []) (ex_int '1' rfl _ rfl (by decide)) rfl (ex_tok (u := []) (by have := hq '2' rfl 2 rfl (by decide); exact_mod_cast this) rfl (ex_tok (u := []) rfl rfl ?_))
  refine ex_tok (u := []) (by have := hq '3' rfl 3 rfl (by decide); exact_mod_cast this) rfl (ex_tok (u := []) (by have := hq '4' rfl 4 rfl (by decide); exact_mod_cast this) rfl
    (ex_tok (u := []) (by have := hq '5' rfl 5 rfl (by decide); exact_mod_cast this) rfl (ex_tok (u := []) (by have := hq '6' rfl 6 rfl (by decide); exact_mod_cast this) rfl ?_)))
  exact ex_tok (u := []) rfl rfl (ex_tok (u := []) rfl rfl (ex_tok (u := "end route".toList) (by show _ = _; decide) rfl (.nil false)))

theorem ex_end : Gap ['\n'] := .blank '\n' [] (by simp [Blank]) .nil

theorem ex_complete : Complete exF := ⟨by decide, by simp [scaleOf, exF], .nil, by simp [boardOf, exF]⟩

/-- the file is imported, and the path is drawn in nanometres at half its size on the layer, for the net -/
example (lib : Lib ℚ) (hl : LibOk lib 8) (R : Int → ℚ × ℚ) : ∃ r, create (fun _ => 0) lib 8 R false (some (exS ++ ['\n'])) = .ok (some r) ∧
    ∃ net, Net.findByName r.nets "n" = some net ∧ Out.geom 0 net.id (.path [(3000000 / 2, 4000000 / 2), (5000000 / 2, 6000000 / 2)] (2000000 / 2)) ∈ r.outs := by
  obtain ⟨r, hr⟩ := (c131_ends_partial (ang := fun _ => 0) (R := R) hl ex_wf ex_writes ex_end).1 ex_complete
  refine ⟨r, hr, ?_⟩
  obtain ⟨inch, sc, net, hi, hc, hn, ho⟩ := c131_path ex_wf ex_writes ex_end hr "n".toList _ (List.mem_singleton.2 rfl) ⟨_, List.mem_singleton.2 rfl, rfl⟩ 1 2 [(3, 4), (5, 6)]
    (by simp) (List.mem_singleton.2 rfl) 0 ⟨_, rfl, by decide, rfl⟩
  have hi' : inch = false := by
    have : inchOf exF = some false := by decide
    rw [this] at hi
    exact (Option.some.inj hi).symm
  have hc' : sc = 2 := by
    have : scaleOf exF = some 2 := rfl
    rw [this] at hc
    exact (Option.some.inj hc).symm
  subst hi' hc'
  refine ⟨net, hn, ?_⟩
  have e : ∀ x : ℚ, x * (nm false / 2) = x * 1000000 / 2 := by intro x; simp only [nm]; norm_num; ring
  simp only [List.map_cons, List.map_nil, times, e] at ho
  norm_num at ho ⊢
  exact ho

/-- there is such a library -/
example : ∃ lib : Lib ℚ, LibOk lib 8 := 
  ⟨⟨⟨fun o r _ => [(o.1 + r, o.2), (o.1, o.2 + r), (o.1 - r, o.2), (o.1, o.2 - r)], fun l _ => l⟩, fun o _ _ => [o], fun _ s _ e _ => [s, e], fun a b _ => [a, b]⟩,
    ⟨by simp, by simp⟩⟩

/-- a file with a via, and with the same via once more -/
def exV (twice : Bool) : List PSec :=
  [.unit "inch".toList, .scale 1, .material [(false, ⟨true, "cu".toList, 5, 0, 0, 0, 0⟩)],
    .layer [⟨"a".toList, 3, 'S', "cu".toList, "d".toList⟩, ⟨"b".toList, 3, 'D', "cu".toList, "d".toList⟩, ⟨"c".toList, 3, 'S', "cu".toList, "d".toList⟩],
    .shape [(7, .circle 3)], .padstack [(4, [⟨1, 7, 0, none⟩])],
    .via (⟨"v".toList, 4, 0, 7, 0, some (1, "cu".toList)⟩ :: if twice then [⟨"v".toList, 4, 0, 7, 0, none⟩] else []),
    .net [⟨none, [], ⟨"n".toList, 'S', 1, []⟩⟩], .route [("n".toList, [(⟨none, true⟩, .via 1 2 "v".toList (5, 6) 90 'Y')])]]

example : (∀ v ∈ viasOf (exV true), Usable (exV true) v) ∧ Complete (exV false) ∧ ¬ Complete (exV true) ∧ MetalNo (exV false) 1 0 ∧ MetalNo (exV false) 2 2 := by
  have hu : ∀ v ∈ viasOf (exV true), Usable (exV true) v := by
    intro v hv
    simp only [viasOf, exV, if_pos, List.flatMap_cons, List.flatMap_nil, List.nil_append, List.append_nil, List.mem_cons, List.not_mem_nil, or_false] at hv
    rcases hv with rfl | rfl
    · exact ⟨⟨_, List.mem_singleton.2 rfl, rfl⟩, ⟨_, List.mem_singleton.2 rfl, rfl⟩, fun b hb => ⟨_, List.mem_singleton.2 rfl, by cases hb; rfl⟩⟩
    · exact ⟨⟨_, List.mem_singleton.2 rfl, rfl⟩, ⟨_, List.mem_singleton.2 rfl, rfl⟩, fun b hb => by cases hb⟩
  refine ⟨hu, ⟨by decide, by simp [scaleOf, exV], by simp [viasOf, exV], by simp [boardOf, exV]⟩, ?_, ⟨_, rfl, by decide, rfl⟩, ⟨_, rfl, by decide, rfl⟩⟩
  intro h
  have h0 : viasOf (exV true) = [⟨"v".toList, 4, 0, 7, 0, some (1, "cu".toList)⟩, ⟨"v".toList, 4, 0, 7, 0, none⟩] := rfl
  have := h.vias
  rw [h0] at this hu
  simp only [List.pairwise_cons, List.mem_cons, List.not_mem_nil, or_false] at this
  exact this.1 _ rfl (hu _ (by simp)) (hu _ (by simp)) rfl

/-- texts that are no XFL files -/
example : create ang lib div R false (some "anything\n".toList) = .ub :=
  c131_unset_refuted "anything".toList (Or.inl (by
    have : read ("anything".toList ++ ['\n']) = ([], true) := by decide +kernel
    rw [this]
    simp))

end Ecad.XflI
