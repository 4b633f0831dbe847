import Verif.KiCad.ImportModel
import Verif.KiCad.ObjProps
/-!
C133: what the database made of the text of a KiCad board holds.
-/
namespace Ecad.KiCad

variable {K : Type} [Field K]

/-! ### what a board says -/

/-- a board: its layers, its stackup, its nets, and its objects (footprints, segments, vias, zones and drawings) -/
structure Pcb where
  layers : List LayerLine
  stack : List StackLine
  nets : List NetLine
  objs : List Tree

/-- A tree is that of a board: layers, setup with the stackup, nets and objects; other nodes before them. -/
def Pcb.IsTree (p : Pcb) (t : Tree) : Prop :=
  ∃ root o1 o2 p1 p2 q, (∀ x ∈ o1 ++ o2 ++ p1 ++ p2, Quiet x) ∧ (∀ x ∈ q, x.value ≠ "layer".toList) ∧
    t = .mk root (o1 ++ ([.mk "layers".toList (p.layers.map LayerLine.tree)] ++ (o2 ++
      ([.mk "setup".toList (p1 ++ ([.mk "stackup".toList (p.stack.map StackLine.tree ++ q)] ++ p2))] ++ (p.nets.map NetLine.tree ++ p.objs)))))

/-- The board is in order: numbers are read as what they are, no layer, stackup line or net appears twice, objects have the parts they need. -/
structure Pcb.Ok (cv : Conv K) (p : Pcb) : Prop where
  ids : ∀ l ∈ p.layers, cv.stoi l.idText = some (l.id : Int) ∧ l.id < 2 ^ 31
  names : (p.layers.map LayerLine.name).Nodup
  stack : (p.stack.map StackLine.name).Nodup
  more : ∀ s ∈ p.stack, ∀ a ∈ s.more, a.value ≠ "type".toList ∧ a.value ≠ "thickness".toList ∧ a.value ≠ "material".toList ∧
    a.value ≠ "epsilon_r".toList ∧ a.value ≠ "loss_tangent".toList
  netIds : ∀ n ∈ p.nets, cv.index n.idText = n.id
  nets : (p.nets.map NetLine.id).Nodup
  few : p.nets.length ≤ 2 ^ 32
  objs : ∀ t ∈ p.objs, WfTop t ∧ t.value ≠ "net".toList

/-- The text of a board: any text without an opening parenthesis, the board with any white space, any text after it. -/
def Writes (name : List Char) (us : List Sexp) (text : List Char) : Prop :=
  ∃ pre w1 w2 s1 rest, '(' ∉ pre ∧ Ws w1 ∧ Ws w2 ∧ Word name ∧ name ≠ [] ∧ Sep s1 ∧ Items us s1 (w2 ++ ')' :: rest) ∧
    text = pre ++ '(' :: (w1 ++ (name ++ s1))

/-- the material a stackup line gives -/
def lineMat (cv : Conv K) (dflt : String) (m : Option (List Char)) : String :=
  match m with
  | none => dflt
  | some x => if cv.word x = [] then dflt else String.ofList (cv.word x)

/-- What a board says about a layer of a layout. -/
def LayerSaid (cv : Conv K) (p : Pcb) (y : SLayer K) : Prop :=
  (∀ s ∈ p.stack, String.ofList s.name = y.name →
    (y.conducting = true ↔ s.type = some "copper".toList) ∧ y.thickness = (s.thickness.map cv.num).getD 0 ∧
    y.conductingMat = lineMat cv "copper" s.material ∧ y.dielectricMat = lineMat cv "silicon" s.material) ∧
  ((∀ s ∈ p.stack, String.ofList s.name ≠ y.name) →
    y.conducting = false ∧ y.thickness = 0 ∧ y.conductingMat = "copper" ∧ y.dielectricMat = "silicon")

/-! ### the layers -/

theorem appendLayers_eq (ys : List (SLayer K)) : ∀ l : List (SLayer K),
    appendLayers l ys = l ++ ys.mapIdx fun (i : Nat) y => { y with id := ((l.length + i : Nat) : Int) } := by
  induction ys with
  | nil => intro l; simp [appendLayers]
  | cons y ys ih =>
    intro l
    rw [appendLayers, ih, List.mapIdx_cons]
    simp only [List.length_append, List.length_cons, List.length_nil, List.append_assoc, List.singleton_append, Nat.add_zero, Nat.zero_add]
    congr 2
    have : (fun (i : Nat) (y : SLayer K) => ({ y with id := ((l.length + 1 + i : Nat) : Int) } : SLayer K)) =
        fun (i : Nat) y => { y with id := ((l.length + (i + 1) : Nat) : Int) } := by
      funext i y
      rw [Nat.add_assoc, Nat.add_comm 1 i]
    rw [this]

/-- one layer without its place -/
def bare (e : List Char × KLayer K) : String × Bool × K × String × String :=
  (String.ofList e.1, e.2.type == .conducting, e.2.thickness, matOr "copper" e.2.material, matOr "silicon" e.2.material)

def SLayer.bare (y : SLayer K) : String × Bool × K × String × String := (y.name, y.conducting, y.thickness, y.conductingMat, y.dielectricMat)

theorem makeLayers_spec (ls : List (List Char × KLayer K)) : ∀ (acc : List (SLayer K)) (el : K), ∃ zs, makeLayers acc el ls = acc ++ zs ∧
    zs.map SLayer.bare = (ls.filter fun e => decide (e.2.id ≤ 32)).map KiCad.bare ∧
    ∀ (k : Nat) y, zs[k]? = some y → y.elevation = el - ((zs.take k).map SLayer.thickness).sum := by
  induction ls with
  | nil => intro acc el; exact ⟨[], by simp [makeLayers], rfl, by simp⟩
  | cons e ls ih =>
    intro acc el
    rw [makeLayers]
    by_cases he : e.2.id > 32
    · rw [if_pos he, List.filter_cons_of_neg (by simpa using he)]
      exact ih acc el
    · rw [if_neg he, List.filter_cons_of_pos (by simpa using he)]
      obtain ⟨zs, h1, h2, h3⟩ := ih (acc ++ [⟨String.ofList e.1, e.2.type == .conducting, el, e.2.thickness, matOr "copper" e.2.material,
        matOr "silicon" e.2.material, -1⟩]) (el - e.2.thickness)
      refine ⟨⟨String.ofList e.1, e.2.type == .conducting, el, e.2.thickness, matOr "copper" e.2.material,
        matOr "silicon" e.2.material, -1⟩ :: zs, by rw [h1]; simp, by rw [List.map_cons, h2]; rfl, ?_⟩
      intro k y hk
      cases k with
      | zero =>
        simp only [List.getElem?_cons_zero, Option.some.injEq] at hk
        rw [← hk]; simp
      | succ k =>
        rw [List.getElem?_cons_succ] at hk
        rw [h3 k y hk]
        simp only [List.take_succ_cons, List.map_cons, List.sum_cons]
        ring

/-- the layers of a layout, from the map of the layers -/
theorem layout_layers (ls : List (List Char × KLayer K)) :
    (appendLayers [] (makeLayers [] 0 ls)).map SLayer.bare = (ls.filter fun e => decide (e.2.id ≤ 32)).map KiCad.bare ∧
    ∀ (k : Nat) y, (appendLayers [] (makeLayers [] 0 ls))[k]? = some y → y.id = (k : Int) ∧
      y.elevation = - (((appendLayers [] (makeLayers [] 0 ls)).take k).map SLayer.thickness).sum := by
  obtain ⟨zs, h1, h2, h3⟩ := makeLayers_spec ls [] 0
  rw [h1, List.nil_append, appendLayers_eq, List.nil_append]
  simp only [List.length_nil, Nat.zero_add]
  have hm : ∀ {β : Type} (f : SLayer K → β), (∀ (y : SLayer K) (i : Int), f { y with id := i } = f y) →
      (zs.mapIdx fun (i : Nat) y => { y with id := (i : Int) }).map f = zs.map f := by
    intro β f hf
    apply List.ext_getElem?
    intro i
    rw [List.getElem?_map, List.getElem?_mapIdx, List.getElem?_map, Option.map_map]
    cases zs[i]? with
    | none => rfl
    | some y => exact congrArg some (hf y i)
  refine ⟨by rw [hm _ (fun _ _ => rfl), h2], ?_⟩
  intro k y hk
  rw [List.getElem?_mapIdx] at hk
  obtain ⟨z, hz, rfl⟩ := Option.map_eq_some_iff.1 hk
  refine ⟨rfl, ?_⟩
  have he := h3 k z hz
  rw [List.map_take, hm _ (fun _ _ => rfl), ← List.map_take]
  simp only [zero_sub] at he
  exact he

theorem matOr_line (cv : Conv K) (dflt : String) (m : Option (List Char)) :
    matOr dflt ((m.map cv.word).getD []) = lineMat cv dflt m := by
  cases m with
  | none => rfl
  | some x =>
    simp only [Option.map_some, Option.getD_some, matOr, lineMat, List.isEmpty_iff]

/-! ### the board as that of C72 and C108 -/

theorem quiet_foreign {t : Tree} (h : Quiet t) : Foreign t := by
  unfold Quiet at h
  simp only [deepNames, drawNames, List.cons_append, List.nil_append, List.forall_mem_cons] at h
  exact ⟨h.1, h.2.1, h.2.2.1, h.2.2.2.1⟩

theorem Pcb.board {p : Pcb} {t : Tree} {cv : Conv K} (hp : p.Ok cv) (ht : p.IsTree t) : Board.IsTree ⟨p.layers, p.stack, p.nets⟩ t := by
  obtain ⟨root, o1, o2, p1, p2, q, ho, hq, rfl⟩ := ht
  refine ⟨root, o1, o2, [], p.objs, p1, p2, q, ?_, hq, by simp⟩
  intro x hx
  simp only [List.append_nil, List.mem_append] at hx
  have hq : ∀ y, y ∈ o1 ∨ y ∈ o2 ∨ y ∈ p1 ∨ y ∈ p2 → Foreign y := fun y hy => quiet_foreign (ho y (by simp only [List.mem_append]; tauto))
  rcases hx with (((hx | hx) | hx) | hx) | hx
  · exact hq x (by tauto)
  · exact hq x (by tauto)
  · obtain ⟨h1, h2⟩ := hp.objs x hx
    exact ⟨h1.other "layers" (by simp), h1.other "stackup" (by simp), h2, h1.other "setup" (by simp)⟩
  · exact hq x (by tauto)
  · exact hq x (by tauto)

theorem net_wf (n : NetLine) : WfTop n.tree := by
  have hv : n.tree.value = "net".toList := rfl
  refine ⟨⟨?_, ?_, ?_, ?_, ?_, ?_, ?_, ?_⟩, ?_, ?_, ?_⟩
  all_goals first
    | (rw [hv]; intro h; exact absurd h (by decide))
    | (intro _; exact Nat.le_refl 2)
    | (rw [hv]; decide)

theorem Pcb.kboard {p : Pcb} {t : Tree} (ht : p.IsTree t) : KBoard.IsTree ⟨p.layers, p.stack, p.nets.map NetLine.tree ++ p.objs⟩ t := ht

theorem Pcb.kok {p : Pcb} {cv : Conv K} (hp : p.Ok cv) : KBoard.Ok cv ⟨p.layers, p.stack, p.nets.map NetLine.tree ++ p.objs⟩ where
  ids := hp.ids
  names := hp.names
  more := hp.more
  objs := by
    intro t ht
    rcases List.mem_append.1 ht with h | h
    · obtain ⟨n, -, rfl⟩ := List.mem_map.1 h
      exact net_wf n
    · exact (hp.objs t h).1

theorem plain_not {n : Nat} {t : Tree} (h1 : t.value ≠ "footprint".toList) (h2 : t.value ≠ "setup".toList) : PlainTo n t := by
  cases n with
  | zero => trivial
  | succ n => exact ⟨fun h => absurd h h1, fun h => absurd h h2⟩

theorem Pcb.plain {p : Pcb} {cv : Conv K} (hp : p.Ok cv) {t : Tree} (ht : p.IsTree t) (n : Nat) : ∀ a ∈ t.branches, PlainTo n a := by
  obtain ⟨root, o1, o2, p1, p2, q, ho, hq, rfl⟩ := ht
  have hQ : ∀ m, ∀ y, y ∈ o1 ∨ y ∈ o2 ∨ y ∈ p1 ∨ y ∈ p2 → PlainTo m y := by
    intro m y hy
    have h := ho y (by simp only [List.mem_append]; tauto)
    unfold Quiet at h
    simp only [deepNames, drawNames, List.cons_append, List.nil_append, List.forall_mem_cons] at h
    exact plain_not h.2.2.2.2.1 h.2.2.2.1
  intro a ha
  simp only [Tree.branches, List.mem_append, List.mem_cons, List.not_mem_nil, or_false, List.mem_map] at ha
  rcases ha with ha | rfl | ha | rfl | ⟨x, -, rfl⟩ | ha
  · exact hQ n a (by tauto)
  · exact plain_not (by show "layers".toList ≠ _; decide) (by show "layers".toList ≠ _; decide)
  · exact hQ n a (by tauto)
  · cases n with
    | zero => trivial
    | succ n =>
      refine ⟨fun h => absurd h (by show "setup".toList ≠ _; decide), fun _ => ?_⟩
      intro b hb
      simp only [Tree.branches, List.mem_append, List.mem_cons, List.not_mem_nil, or_false] at hb
      rcases hb with hb | rfl | hb
      · exact hQ n b (by tauto)
      · exact plain_not (by show "stackup".toList ≠ _; decide) (by show "stackup".toList ≠ _; decide)
      · exact hQ n b (by tauto)
  · exact plain_not (by show "net".toList ≠ _; decide) (by show "net".toList ≠ _; decide)
  · have h := (hp.objs a ha).1
    cases n with
    | zero => trivial
    | succ n => exact ⟨fun hf b hb => ((h.foot hf).2 b hb).2.1, fun hs => absurd hs (h.other "setup" (by simp))⟩

/-! ### the property -/

theorem create_new {reg : Registry.Reg} {name : String} (d : Nat) (h : UMap.find? reg name = none) :
    Registry.create reg name d = ((UMap.emplace reg name d).1, some d) := by
  have hc : UMap.count reg name = false := by rw [← UMap.find?_isSome_eq_count, h]; rfl
  unfold Registry.create Registry.register
  rw [hc, UMap.find?_emplace, hc]
  simp

theorem setType_copper (ty : List Char) : setType .unknown ty = .conducting ↔ ty = "copper".toList := by
  unfold setType
  split
  · rename_i h
    constructor
    · intro h'; cases h'
    · rintro rfl; revert h; decide
  · split
    · rename_i h; simp [h]
    · rename_i h
      split
      · exact ⟨fun h' => (by cases h'), fun h' => absurd h' h⟩
      · exact ⟨fun h' => (by cases h'), fun h' => absurd h' h⟩

/-- **C133, partial.** A database made of the text of a board, however it is laid out and whatever the orders of the maps: it is registered under its
name and has a cell of this name in millimetres; the layout has one layer for each layer of the board with a number up to 32, numbered and stacked
downwards without gaps, with the kind, thickness and materials of the stackup; it has a net for each name of a net and no other.  Missing: the
order of the layers (`c72_order_refuted`), and every object of the board: `c133_objects_refuted`. -/
theorem c133_board_partial [DecidableEq K] (cv : Conv K) (mv : List Char → List Char) (junk : Char)
    (ordN : List (Nat × List Char) → List (Nat × List Char)) (ordL : List (List Char × KLayer K) → List (List Char × KLayer K))
    (hN : ∀ l, (ordN l).Perm l) (hL : ∀ l, (ordL l).Perm l) (reg : Registry.Reg) (d : Nat) (name : String)
    (hfree : Registry.openDb reg name = none) (p : Pcb) (hp : p.Ok cv) (root : List Char) (us : List Sexp)
    (ht : p.IsTree (Sexp.node root us).tree) (text : List Char) (hw : Writes root us text) (fuel n : Nat) (hf : text.length + 2 ≤ fuel) :
    ∃ reg' im, createDatabase cv mv junk ordN ordL fuel (n + 2) reg d name (some text) = (reg', some (.ok (some im))) ∧
      (∀ m, Registry.openDb reg' m = if m = name then some d else Registry.openDb reg m) ∧
      im.database = name ∧ im.cells = [name] ∧ im.millimeter = true ∧
      (im.layers.map SLayer.name).Perm ((p.layers.filter fun l => l.id ≤ 32).map fun l => String.ofList l.name) ∧
      (∀ (k : Nat) y, im.layers[k]? = some y → y.id = (k : Int) ∧ y.elevation = - ((im.layers.take k).map SLayer.thickness).sum) ∧
      (∀ y ∈ im.layers, LayerSaid cv p y) ∧
      (im.nets.nets.map fun e => e.2.name).Nodup ∧ (im.nets.nets.map fun e => e.2.id).Nodup ∧
      (∀ m, (∃ e ∈ im.nets.nets, e.2.name = m) ↔ ∃ x ∈ p.nets, String.ofList x.name = m) := by
  have hread : ∃ rest, readTree junk fuel text = some ((Sexp.node root us).tree, rest) := by
    obtain ⟨pre, w1, w2, s1, rest, h1, h2, h3, h4, h5, h6, h7, rfl⟩ := hw
    exact ⟨rest, c46_reads junk h1 h2 h3 h4 h5 h6 h7 fuel hf⟩
  obtain ⟨rest, hread⟩ := hread
  generalize hT : (Sexp.node root us).tree = t at ht hread
  obtain ⟨s, hs, -⟩ := c108_objects_partial cv mv _ (Pcb.kok hp) t (Pcb.kboard ht) n
  have hdb := c108_refines_c72 cv mv (n + 2) t (Pcb.plain hp ht (n + 2)) s hs
  have hbok : Board.Ok cv ⟨p.layers, p.stack, p.nets⟩ := ⟨hp.ids, hp.names, hp.stack, hp.more, hp.netIds, hp.nets⟩
  have hbt := Pcb.board hp ht
  have hex := extract_board cv _ hbok t hbt (n + 2) (by omega)
  obtain ⟨db1, e1, hnets⟩ := c72_nets cv _ hbok t hbt (n + 2) (by omega) hp.few
  rw [hdb] at hex e1
  injection e1 with e1
  injection hex with hex
  subst e1
  obtain ⟨g1, g2, g3, -⟩ := hnets _ (hN s.db.nets)
  obtain ⟨l1, l2⟩ := layout_layers (ordL s.db.layers)
  have hord : (ordL s.db.layers).Perm (p.layers.map fun l => p.stack.foldl (applyLine cv) (l.name, (⟨l.id, .unknown, 0, []⟩ : KLayer K))) := by
    have := hL s.db.layers
    rw [hex] at this ⊢
    exact this
  refine ⟨(UMap.emplace reg name d).1, createObjects ordN ordL name s, ?_, ?_, rfl, rfl, rfl, ?_, l2, ?_, g1, g2, g3⟩
  · unfold createDatabase
    rw [create_new d hfree]
    simp only [hread, Option.map_some, hs, Res.bind_ok]
  · intro m
    unfold Registry.openDb at hfree ⊢
    rw [UMap.find?_emplace', hfree]
    simp
  · have : (appendLayers [] (makeLayers [] 0 (ordL s.db.layers))).map SLayer.name =
        ((ordL s.db.layers).filter fun e => decide (e.2.id ≤ 32)).map fun e => String.ofList e.1 := by
      have := congrArg (List.map Prod.fst) l1
      rw [List.map_map, List.map_map] at this
      exact this
    refine (List.Perm.of_eq this).trans (((hord.filter _).map _).trans ?_)
    rw [List.filter_map, List.map_map]
    have e1 : p.layers.filter ((fun e : List Char × KLayer K => decide (e.2.id ≤ 32)) ∘ fun l => p.stack.foldl (applyLine cv) (l.name, ⟨l.id, .unknown, 0, []⟩)) =
        p.layers.filter fun l => decide (l.id ≤ 32) := by
      apply List.filter_congr
      intro l _
      simp only [Function.comp]
      rw [(fold_applyLine cv p.stack _ hp.stack).2.1]
    rw [e1]
    apply List.Perm.of_eq
    apply List.map_congr_left
    intro l _
    simp only [Function.comp]
    rw [(fold_applyLine cv p.stack _ hp.stack).1]
  · intro y hy
    have hm : y.bare ∈ (appendLayers [] (makeLayers [] 0 (ordL s.db.layers))).map SLayer.bare := List.mem_map_of_mem hy
    rw [l1] at hm
    obtain ⟨e, he, heq⟩ := List.mem_map.1 hm
    obtain ⟨l, hl, rfl⟩ := List.mem_map.1 (hord.mem_iff.1 (List.mem_filter.1 he).1)
    obtain ⟨f1, -, f3, f4⟩ := fold_applyLine cv p.stack ((l.name, ⟨l.id, .unknown, 0, []⟩) : List Char × KLayer K) hp.stack
    unfold KiCad.bare SLayer.bare at heq
    simp only [Prod.mk.injEq] at heq
    obtain ⟨q1, q2, q3, q4, q5⟩ := heq
    rw [f1] at q1
    simp only at q1
    constructor
    · intro st hst hn
      have hsn : st.name = l.name := String.ofList_injective (by rw [hn, q1])
      rw [f4 st hst hsn] at q2 q3 q4 q5
      simp only [applyTo] at q2 q3 q4 q5
      rw [matOr_line] at q4 q5
      refine ⟨?_, q3.symm, q4.symm, q5.symm⟩
      rw [← q2]
      cases hty : st.type with
      | none => simp
      | some ty =>
        simp only [Option.map_some, Option.getD_some, beq_iff_eq, Option.some.injEq]
        exact setType_copper ty
    · intro hno
      have : ∀ st ∈ p.stack, st.name ≠ l.name := fun st hst h => hno st hst (by rw [h, q1])
      rw [f3 this] at q2 q3 q4 q5
      exact ⟨q2.symm, q3.symm, q4.symm, q5.symm⟩

/-- **C133 fails for the objects of a board.** Whatever is drawn and placed on the board, the layout made of it is empty. -/
theorem c133_objects_refuted [DecidableEq K] (cv : Conv K) (mv : List Char → List Char) (junk : Char)
    (ordN : List (Nat × List Char) → List (Nat × List Char)) (ordL : List (List Char × KLayer K) → List (List Char × KLayer K))
    (reg reg' : Registry.Reg) (d fuel depth : Nat) (name : String) (file : Option (List Char)) (im : Import K)
    (h : createDatabase cv mv junk ordN ordL fuel depth reg d name file = (reg', some (.ok (some im)))) :
    im.primitives = 0 ∧ im.padstacks = 0 ∧ im.components = 0 ∧ im.instances = 0 := by
  unfold createDatabase at h
  split at h
  · simp at h
  · cases file with
    | none => simp at h
    | some text =>
      simp only [Prod.mk.injEq] at h
      obtain ⟨t, -, h⟩ := Option.map_eq_some_iff.1 h.2
      obtain ⟨s, -, h⟩ := bind_eq_ok h
      injection h with h
      injection h with h
      subst h
      exact ⟨rfl, rfl, rfl, rfl⟩

/-- Under a name that is taken there is no import, and nothing changes. -/
theorem c133_taken [DecidableEq K] (cv : Conv K) (mv : List Char → List Char) (junk : Char)
    (ordN : List (Nat × List Char) → List (Nat × List Char)) (ordL : List (List Char × KLayer K) → List (List Char × KLayer K))
    (reg : Registry.Reg) (d x fuel depth : Nat) (name : String) (file : Option (List Char)) (h : Registry.openDb reg name = some x) :
    createDatabase cv mv junk ordN ordL fuel depth reg d name file = (reg, some (.ok none)) := by
  have hc : UMap.count reg name = true := by rw [← UMap.find?_isSome_eq_count]; unfold Registry.openDb at h; rw [h]; rfl
  have : Registry.create reg name d = (reg, none) := by unfold Registry.create; rw [if_pos hc]
  unfold createDatabase
  rw [this]

/-- **C133 fails for files that cannot be read.** An import that fails leaves its database behind: after any import under a name, with any file and
any outcome, the name is taken, and every further import under this name gives nothing, even of the text of a board in order. -/
theorem c133_failed_refuted [DecidableEq K] (cv : Conv K) (mv : List Char → List Char) (junk : Char)
    (ordN : List (Nat × List Char) → List (Nat × List Char)) (ordL : List (List Char × KLayer K) → List (List Char × KLayer K))
    (reg : Registry.Reg) (d d' fuel fuel' depth depth' : Nat) (name : String) (file file' : Option (List Char)) :
    (Registry.openDb reg name = none → (createDatabase cv mv junk ordN ordL fuel depth reg d name none).2 = some (.ok none) ∧
      Registry.openDb (createDatabase cv mv junk ordN ordL fuel depth reg d name none).1 name = some d) ∧
    (createDatabase cv mv junk ordN ordL fuel' depth' (createDatabase cv mv junk ordN ordL fuel depth reg d name file).1 d' name file').2 =
      some (.ok none) := by
  have hreg : ∀ f, Registry.openDb reg name = none →
      (createDatabase cv mv junk ordN ordL fuel depth reg d name f).1 = (UMap.emplace reg name d).1 := by
    intro f h
    unfold createDatabase
    rw [create_new d h]
    cases f <;> rfl
  have hopen : Registry.openDb reg name = none → Registry.openDb (UMap.emplace reg name d).1 name = some d := by
    intro h
    unfold Registry.openDb at h ⊢
    rw [UMap.find?_emplace', h]
    simp
  refine ⟨fun h => ⟨?_, by rw [hreg none h]; exact hopen h⟩, ?_⟩
  · unfold createDatabase
    rw [create_new d h]
  · cases h : Registry.openDb reg name with
    | some x =>
      rw [c133_taken cv mv junk ordN ordL reg d x fuel depth name file h, c133_taken cv mv junk ordN ordL reg d' x fuel' depth' name file' h]
    | none =>
      rw [hreg file h, c133_taken cv mv junk ordN ordL _ d' d fuel' depth' name file' (hopen h)]

end Ecad.KiCad
