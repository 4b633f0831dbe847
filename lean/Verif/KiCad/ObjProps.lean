import Verif.KiCad.ObjNode
/-!
C108: the objects of a KiCad board are collected where they belong.
-/
namespace Ecad.KiCad

variable {K : Type} [Field K]

/-- the name of a footprint -/
def fpName (t : Tree) : List Char := (t.branches[0]?.map Tree.value).getD []

/-- the footprints that get a key -/
def fps (mv : List Char → List Char) (key : List Char) (nts : List (Nat × Tree)) : List (Nat × Tree) :=
  nts.filter fun e => decide (e.2.value = "footprint".toList ∧ mv (fpName e.2) = key)

/-- what is inside a footprint -/
def inside (e : Nat × Tree) : List (Nat × Tree) := number unnamedPad e.1 (e.2.branches.drop 1)

/-- a node of a board behind the layers and the setup can be read -/
structure WfTop (t : Tree) : Prop where
  draw : WfDraw t
  net : Has "net" 2 t
  foot : t.value = "footprint".toList → 1 ≤ t.branches.length ∧ ∀ a ∈ t.branches.drop 1, WfPart a
  other : ∀ k ∈ ["layers", "stackup", "setup"], t.value ≠ k.toList

theorem find?_upd (m : List (List Char × Comp K)) (k k' : List Char) (f : Comp K → Comp K) :
    UMap.find? (m.map fun e => if e.1 = k then (e.1, f e.2) else e) k' =
      if k' = k then (UMap.find? m k).map f else UMap.find? m k' := by
  induction m with
  | nil => simp [UMap.find?_nil]
  | cons e m ih =>
    rw [List.map_cons, UMap.find?_cons, ih, UMap.find?_cons e m k, UMap.find?_cons e m k']
    by_cases h1 : e.1 = k
    · by_cases h2 : k' = k
      · rw [if_pos h2, if_pos h1, if_pos h1, if_pos (h1.trans h2.symm), if_pos h2]
        rfl
      · have h3 : ¬ e.1 = k' := fun h => h2 (h.symm.trans h1)
        rw [if_neg h2, if_pos h1, if_neg h3, if_neg h2, if_neg h3]
    · by_cases h2 : k' = k
      · rw [if_pos h2, if_neg h1, if_neg h1, if_neg (fun h => h1 (h.trans h2)), if_pos h2]
      · rw [if_neg h2, if_neg h1, if_neg h2]

theorem keys_upd (m : List (List Char × Comp K)) (k : List Char) (f : Comp K → Comp K) :
    UMap.keys (m.map fun e => if e.1 = k then (e.1, f e.2) else e) = UMap.keys m := by
  unfold UMap.keys
  rw [List.map_map]
  apply List.map_congr_left
  intro e _
  by_cases h : e.1 = k <;> simp [h]

/-- one node -/
theorem node_top [DecidableEq K] (cv : Conv K) (mv : List Char → List Char) (n : Nat) (s : St K) (hc : s.cur = none) (t : Tree) (h : WfTop t) :
    ∃ s', node cv mv (n + 2) s t = .ok s' ∧ s'.cur = none ∧ s'.db.layers = s.db.layers ∧ s'.noName = s.noName + unnamed t ∧
      s'.root = addAll cv s.fl s.root [(s.noName, t)] ∧ (UMap.WF s.comps → UMap.WF s'.comps) ∧
      ∀ k, UMap.find? s'.comps k =
        if t.value = "footprint".toList ∧ mv (fpName t) = k then
          some (fpOf cv s.fl ((UMap.find? s.comps k).getD (Comp.new (fpName t))) (inside (s.noName, t)))
        else UMap.find? s.comps k := by
  by_cases hf : t.value = "footprint".toList
  · obtain ⟨hl, hp⟩ := h.foot hf
    have h0 : t.branches[0]? = some t.branches[0] := List.getElem?_eq_getElem _
    have hn : fpName t = t.branches[0].value := by simp [fpName, h0]
    have hd : ∀ k ∈ drawNames, t.value ≠ k.toList := by
      intro k hk; exact key_ne hf (by rintro rfl; revert hk; decide)
    have hfold := foot_fold cv mv n (mv (fpName t)) (t.branches.drop 1)
      { s with comps := addComponent mv s.comps (fpName t), cur := some (mv (fpName t)) } rfl hp
    refine ⟨⟨s.db, (addComponent mv s.comps (fpName t)).map fun e => if e.1 = mv (fpName t) then
        (e.1, fpOf cv s.fl e.2 (number unnamedPad s.noName (t.branches.drop 1))) else e, s.root,
        s.noName + ((t.branches.drop 1).map unnamedPad).sum, none⟩, ?_, ?_⟩
    · rw [node, if_neg (key_ne hf (by decide)), if_neg (key_ne hf (by decide)), if_neg (key_ne hf (by decide)),
        if_neg (key_ne hf (by decide)), if_pos hf, val_some h0, Res.bind_ok, ← hn, hfold, Res.bind_ok]
      rfl
    · refine ⟨rfl, rfl, ?_, ?_, ?_, ?_⟩
      · show s.noName + _ = _
        unfold unnamed
        rw [if_pos hf]
      · rw [addAll_other cv s.fl _ _ _ hd]
      · intro hw
        have := UMap.WF_emplace hw (mv (fpName t)) (Comp.new (fpName t))
        show (UMap.keys _).Nodup
        rw [keys_upd _ _ fun c => fpOf cv s.fl c (number unnamedPad s.noName (t.branches.drop 1))]
        exact this
      · intro k
        refine (find?_upd _ _ _ fun c => fpOf cv s.fl c (number unnamedPad s.noName (t.branches.drop 1))).trans ?_
        unfold addComponent
        rw [UMap.find?_emplace', UMap.find?_emplace']
        by_cases hk : mv (fpName t) = k
        · subst hk
          rw [if_pos rfl]
          cases hv : UMap.find? s.comps (mv (fpName t)) with
          | none =>
            rw [if_pos ⟨rfl, rfl⟩, if_pos ⟨hf, rfl⟩]
            rfl
          | some c =>
            rw [if_neg (by simp), if_pos ⟨hf, rfl⟩]
            rfl
        · rw [if_neg (fun h => hk h.symm), if_neg (fun h => hk h.1.symm), if_neg (fun h => hk h.2)]
  · by_cases hnet : t.value = "net".toList
    · have hl := h.net hnet
      have h0 : t.branches[0]? = some t.branches[0] := List.getElem?_eq_getElem _
      have h1 : t.branches[1]? = some t.branches[1] := List.getElem?_eq_getElem _
      have hd : ∀ k ∈ drawNames, t.value ≠ k.toList := by
        intro k hk; exact key_ne hnet (by rintro rfl; revert hk; decide)
      refine ⟨{ s with db := { s.db with nets := (UMap.emplace s.db.nets (cv.index t.branches[0].value) t.branches[1].value).1 } }, ?_,
        hc, rfl, ?_, ?_, id, ?_⟩
      · rw [node, if_neg (key_ne hnet (by decide)), if_neg (key_ne hnet (by decide)), if_pos hnet]
        unfold extractNet front
        simp only [Res.at_, h1, Res.index, h0, Res.bind_ok]
      · show s.noName = _
        unfold unnamed unnamedPad
        rw [if_neg hf, if_neg (fun hc => key_ne hnet (by decide) hc.1)]
        rfl
      · rw [addAll_other cv s.fl _ _ _ hd]
      · intro k
        rw [if_neg (fun hc => hf hc.1)]
    · have ho := h.other
      simp only [List.forall_mem_cons] at ho
      have hdeep : ∀ k ∈ deepNames, t.value ≠ k.toList := by
        simp only [deepNames, List.forall_mem_cons]
        exact ⟨ho.1, ho.2.1, hnet, ho.2.2.1, hf, by simp⟩
      refine ⟨_, (node_draw cv mv (n + 1) s t hdeep).trans (drawNode_spec cv s t h.draw), ?_, ?_, ?_, ?_, ?_, ?_⟩
      · show (s.onCur _).cur = none
        unfold St.onCur
        rw [hc]
      · show (s.onCur _).db.layers = _
        unfold St.onCur
        rw [hc]
      · show s.noName + _ = _
        unfold unnamed
        rw [if_neg hf]
      · show (s.onCur _).root = _
        unfold St.onCur
        rw [hc]
      · show _ → UMap.WF (s.onCur _).comps
        unfold St.onCur
        rw [hc]
        exact id
      · intro k
        rw [if_neg (fun hc => hf hc.1)]
        show UMap.find? (s.onCur _).comps k = _
        unfold St.onCur
        rw [hc]

/-- the component of a key, given the footprints that get the key -/
def compOf [DecidableEq K] (cv : Conv K) (fl : List Char → Option Nat) (old : Option (Comp K)) (es : List (Nat × Tree)) : Option (Comp K) :=
  match old, es with
  | none, [] => none
  | none, e :: es => some (fpOf cv fl (Comp.new (fpName e.2)) ((e :: es).flatMap inside))
  | some c, es => some (fpOf cv fl c (es.flatMap inside))

theorem compOf_cons [DecidableEq K] (cv : Conv K) (fl : List Char → Option Nat) (old : Option (Comp K)) (e : Nat × Tree) (es : List (Nat × Tree)) :
    compOf cv fl (some (fpOf cv fl (old.getD (Comp.new (fpName e.2))) (inside e))) es = compOf cv fl old (e :: es) := by
  cases old with
  | none => simp only [compOf, List.flatMap_cons, fpOf_append, Option.getD_none]
  | some c => simp only [compOf, List.flatMap_cons, fpOf_append, Option.getD_some]

theorem compOf_nil [DecidableEq K] (cv : Conv K) (fl : List Char → Option Nat) (old : Option (Comp K)) : compOf cv fl old [] = old := by
  cases old with
  | none => rfl
  | some c => simp only [compOf, List.flatMap_nil, fpOf_nil]

/-- all nodes behind the layers -/
theorem body_fold [DecidableEq K] (cv : Conv K) (mv : List Char → List Char) (n : Nat) (ts : List Tree) : ∀ s : St K, s.cur = none →
    (∀ t ∈ ts, WfTop t) →
    ∃ s', foldR (node cv mv (n + 2)) s ts = .ok s' ∧ s'.cur = none ∧ s'.db.layers = s.db.layers ∧
      s'.root = addAll cv s.fl s.root (number unnamed s.noName ts) ∧ (UMap.WF s.comps → UMap.WF s'.comps) ∧
      ∀ k, UMap.find? s'.comps k = compOf cv s.fl (UMap.find? s.comps k) (fps mv k (number unnamed s.noName ts)) := by
  induction ts with
  | nil =>
    intro s hc _
    exact ⟨s, rfl, hc, rfl, (addAll_nil cv s.fl s.root).symm, id, fun k => (compOf_nil cv s.fl _).symm⟩
  | cons t ts ih =>
    intro s hc hw
    obtain ⟨s1, e1, c1, l1, n1, r1, w1, f1⟩ := node_top cv mv n s hc t (hw t (by simp))
    obtain ⟨s2, e2, c2, l2, r2, w2, f2⟩ := ih s1 c1 (fun x hx => hw x (by simp [hx]))
    have hfl : s1.fl = s.fl := by unfold St.fl; rw [l1]
    refine ⟨s2, by rw [foldR, e1, Res.bind_ok, e2], c2, l2.trans l1, ?_, fun h => w2 (w1 h), ?_⟩
    · rw [r2, hfl, r1, n1, ← addAll_append]
      rfl
    · intro k
      rw [f2 k, hfl, n1, f1 k]
      have hnum : number unnamed s.noName (t :: ts) = (s.noName, t) :: number unnamed (s.noName + unnamed t) ts := rfl
      rw [hnum]
      unfold fps
      by_cases h : t.value = "footprint".toList ∧ mv (fpName t) = k
      · rw [if_pos h, List.filter_cons_of_pos (by exact decide_eq_true h)]
        exact compOf_cons cv s.fl _ (s.noName, t) _
      · rw [if_neg h, List.filter_cons_of_neg (by exact fun hc => h (of_decide_eq_true hc))]

/-! ### boards -/

/-- a board: its layers, the lines of its stackup and its further nodes -/
structure KBoard where
  layers : List LayerLine
  stack : List StackLine
  objs : List Tree

/-- a node that the import passes over -/
def Quiet (t : Tree) : Prop := ∀ k ∈ deepNames ++ drawNames, t.value ≠ k.toList

/-- A tree is that of a board: layers, setup with the stackup, and the objects; other nodes between them. -/
def KBoard.IsTree (b : KBoard) (t : Tree) : Prop :=
  ∃ root o1 o2 p1 p2 q, (∀ x ∈ o1 ++ o2 ++ p1 ++ p2, Quiet x) ∧ (∀ x ∈ q, x.value ≠ "layer".toList) ∧
    t = .mk root (o1 ++ ([.mk "layers".toList (b.layers.map LayerLine.tree)] ++ (o2 ++
      ([.mk "setup".toList (p1 ++ ([.mk "stackup".toList (b.stack.map StackLine.tree ++ q)] ++ p2))] ++ b.objs))))

/-- The board is in order. -/
structure KBoard.Ok (cv : Conv K) (b : KBoard) : Prop where
  ids : ∀ l ∈ b.layers, cv.stoi l.idText = some (l.id : Int) ∧ l.id < 2 ^ 31
  names : (b.layers.map LayerLine.name).Nodup
  more : ∀ s ∈ b.stack, ∀ a ∈ s.more, a.value ≠ "type".toList ∧ a.value ≠ "thickness".toList ∧ a.value ≠ "material".toList ∧
    a.value ≠ "epsilon_r".toList ∧ a.value ≠ "loss_tangent".toList
  objs : ∀ t ∈ b.objs, WfTop t

/-- the number of the layer of a name -/
def KBoard.fl (b : KBoard) (name : List Char) : Option Nat := (b.layers.find? fun l => decide (l.name = name)).map LayerLine.id

theorem quiet_draw [DecidableEq K] (cv : Conv K) (s : St K) (t : Tree) (h : Quiet t) : drawNode cv s t = .ok s := by
  unfold Quiet at h
  simp only [deepNames, drawNames, List.cons_append, List.nil_append, List.forall_mem_cons] at h
  obtain ⟨-, -, -, -, -, h1, h2, h3, h4, h5, h6, h7, h8, h9, h10, h11, -⟩ := h
  unfold drawNode
  rw [if_neg h1, if_neg h2, if_neg h3, if_neg h4, if_neg (not_or.2 ⟨h5, h6⟩), if_neg (not_or.2 ⟨h7, h8⟩), if_neg h9, if_neg (not_or.2 ⟨h10, h11⟩)]

theorem fold_quiet [DecidableEq K] (cv : Conv K) (mv : List Char → List Char) (n : Nat) (ts : List Tree) (h : ∀ t ∈ ts, Quiet t) (s : St K) :
    foldR (node cv mv (n + 1)) s ts = .ok s := by
  induction ts with
  | nil => rfl
  | cons t ts ih =>
    have ht := h t (by simp)
    rw [foldR, node_draw cv mv n s t (fun k hk => ht k (List.mem_append_left _ hk)), quiet_draw cv s t ht, Res.bind_ok]
    exact ih fun x hx => h x (by simp [hx])

theorem foldR_one {σ α : Type} (f : σ → α → Res σ) (s : σ) (a : α) : foldR f s [a] = f s a := by
  rw [foldR]
  cases f s a <;> rfl

/-- the state behind the layers and the setup -/
theorem collect_head [DecidableEq K] (cv : Conv K) (mv : List Char → List Char) (b : KBoard) (hb : b.Ok cv) (t : Tree) (ht : b.IsTree t)
    (n : Nat) : ∃ db : KDb K, collect cv mv (n + 2) t = foldR (node cv mv (n + 2)) ⟨db, [], Comp.new [], 0, none⟩ b.objs ∧
      findId db.layers = b.fl := by
  obtain ⟨root, o1, o2, p1, p2, q, ho, hq, rfl⟩ := ht
  have hw : UMap.WF ((b.layers.map fun l => (l.name, (⟨l.id, .unknown, 0, []⟩ : KLayer K)))) := by
    show (UMap.keys _).Nodup
    simp only [UMap.keys, List.map_map]
    exact hb.names
  have hlay : extractLayers cv ({} : KDb K) (b.layers.map LayerLine.tree) =
      .ok { layers := b.layers.map fun l => (l.name, ⟨l.id, .unknown, 0, []⟩) } := by
    rw [layers_lines cv b.layers hb.ids _ hb.names (by simp [UMap.keys])]
    simp
  refine ⟨{ layers := (b.layers.map fun l => (l.name, (⟨l.id, .unknown, 0, []⟩ : KLayer K))).map fun e => b.stack.foldl (applyLine cv) e }, ?_, ?_⟩
  · unfold collect
    rw [Tree.branches, foldR_append, fold_quiet cv mv _ o1 (fun x hx => ho x (by simp [hx])), Res.bind_ok, foldR_append, foldR_one, node,
      if_pos (by rfl)]
    have e1 : (St.new : St K).db = {} := rfl
    rw [e1, Tree.branches, hlay, Res.bind_ok, Res.bind_ok, foldR_append, fold_quiet cv mv _ o2 (fun x hx => ho x (by simp [hx])), Res.bind_ok,
      foldR_append, foldR_one, node]
    have hv : ∀ bs, (Tree.mk "setup".toList bs).value = "setup".toList := fun _ => rfl
    have hv2 : ∀ bs, (Tree.mk "stackup".toList bs).value = "stackup".toList := fun _ => rfl
    rw [if_neg (by rw [hv]; decide), if_neg (by rw [hv]; decide), if_neg (by rw [hv]; decide), if_pos (hv _), Tree.branches, foldR_append,
      fold_quiet cv mv _ p1 (fun x hx => ho x (by simp [hx])), Res.bind_ok, foldR_append, foldR_one, node,
      if_neg (by rw [hv2]; decide), if_pos (hv2 _), Tree.branches]
    rw [stack_lines cv b.stack hb.more q hq _ hw, Res.bind_ok, Res.bind_ok, fold_quiet cv mv _ p2 (fun x hx => ho x (by simp [hx])), Res.bind_ok]
    rfl
  · funext name
    have hfold : ∀ (ss : List StackLine) (e : List Char × KLayer K), (ss.foldl (applyLine cv) e).1 = e.1 ∧ (ss.foldl (applyLine cv) e).2.id = e.2.id := by
      intro ss
      induction ss with
      | nil => intro e; exact ⟨rfl, rfl⟩
      | cons s ss ih =>
        intro e
        rw [List.foldl_cons]
        refine ⟨(ih _).1.trans (applyLine_fst cv e s), (ih _).2.trans ?_⟩
        unfold applyLine
        split <;> rfl
    unfold findId KBoard.fl
    simp only [List.map_map]
    induction b.layers with
    | nil => rfl
    | cons l ls ih =>
      rw [List.map_cons, UMap.find?_cons, List.find?_cons]
      have h1 := hfold b.stack (l.name, ⟨l.id, .unknown, 0, []⟩)
      simp only [Function.comp] at ih ⊢
      rw [h1.1]
      by_cases he : l.name = name
      · rw [if_pos he, decide_eq_true he]
        simp only [Option.map_some]
        exact congrArg some h1.2
      · rw [if_neg he, decide_eq_false he]
        exact ih

/-! ### the property -/

/-- **C108, objects of the board and footprints by key, partial.** Whatever a moved-from string holds: collecting a board in order ends
normally; the objects that are not in a footprint are collected for the board, kind by kind, each once, in the order of the file
and with the values of its node, and the component with a key has what the footprints with this key say.  Missing: every
footprint has its own key (`c108_footprints_refuted`). -/
theorem c108_objects_partial [DecidableEq K] (cv : Conv K) (mv : List Char → List Char) (b : KBoard) (hb : b.Ok cv) (t : Tree)
    (ht : b.IsTree t) (n : Nat) : ∃ s, collect cv mv (n + 2) t = .ok s ∧
      s.root = addAll cv b.fl (Comp.new []) (number unnamed 0 b.objs) ∧ UMap.WF s.comps ∧
      ∀ k, UMap.find? s.comps k = compOf cv b.fl none (fps mv k (number unnamed 0 b.objs)) := by
  obtain ⟨db, he, hfl⟩ := collect_head cv mv b hb t ht n
  obtain ⟨s, e, -, -, hr, hw, hf⟩ := body_fold cv mv n b.objs ⟨db, [], Comp.new [], 0, none⟩ rfl hb.objs
  have h2 : (⟨db, [], Comp.new [], 0, none⟩ : St K).fl = b.fl := hfl
  rw [h2] at hr hf
  exact ⟨s, he.trans e, hr, hw UMap.WF_nil, hf⟩

/-- the footprints of a board -/
def feet (nts : List (Nat × Tree)) : List (Nat × Tree) := nts.filter fun e => decide (e.2.value = "footprint".toList)

/-- With a library that left the names as they are, and footprints of different names, every footprint would get its own component. -/
theorem c108_own_partial [DecidableEq K] (cv : Conv K) (b : KBoard) (hb : b.Ok cv) (t : Tree) (ht : b.IsTree t) (n : Nat)
    (hd : ((feet (number unnamed 0 b.objs)).map fun e => fpName e.2).Nodup) : ∃ s, collect cv id (n + 2) t = .ok s ∧
      ∀ e ∈ feet (number unnamed 0 b.objs), UMap.find? s.comps (fpName e.2) = some (fpOf cv b.fl (Comp.new (fpName e.2)) (inside e)) := by
  obtain ⟨s, hs, -, -, hf⟩ := c108_objects_partial cv id b hb t ht n
  refine ⟨s, hs, ?_⟩
  intro e he
  rw [hf]
  have : fps id (fpName e.2) (number unnamed 0 b.objs) = [e] := by
    have h1 : fps id (fpName e.2) (number unnamed 0 b.objs) =
        (feet (number unnamed 0 b.objs)).filter fun x => decide (fpName x.2 = fpName e.2) := by
      unfold fps feet
      rw [List.filter_filter]
      apply List.filter_congr
      intro x _
      simp only [id, Bool.decide_and]
      exact Bool.and_comm _ _
    rw [h1]
    generalize feet (number unnamed 0 b.objs) = l at hd he
    induction l with
    | nil => simp at he
    | cons x l ih =>
      rw [List.map_cons, List.nodup_cons] at hd
      rcases List.mem_cons.1 he with rfl | he
      · rw [List.filter_cons_of_pos (by simp), List.filter_eq_nil_iff.2]
        intro y hy
        simp only [decide_eq_true_eq]
        intro hc
        exact hd.1 (hc ▸ List.mem_map_of_mem (f := fun e : Nat × Tree => fpName e.2) hy)
      · rw [List.filter_cons_of_neg, ih hd.2 he]
        simp only [decide_eq_true_eq]
        intro hc
        exact hd.1 (hc ▸ List.mem_map_of_mem (f := fun e : Nat × Tree => fpName e.2) he)
  rw [this]
  simp [compOf]

/-- **C108 fails for footprints.** Where a moved-from string is empty, as with the usual libraries, all footprints of a board end up in one
component without a key: it has the name of the first, the place of the last, and the objects of all of them. -/
theorem c108_footprints_refuted [DecidableEq K] (cv : Conv K) (b : KBoard) (hb : b.Ok cv) (t : Tree) (ht : b.IsTree t) (n : Nat)
    (e : Nat × Tree) (es : List (Nat × Tree)) (he : feet (number unnamed 0 b.objs) = e :: es) :
    ∃ s, collect cv (fun _ => []) (n + 2) t = .ok s ∧
      s.comps = [([], fpOf cv b.fl (Comp.new (fpName e.2)) ((e :: es).flatMap inside))] := by
  obtain ⟨s, hs, -, hw, hf⟩ := c108_objects_partial cv (fun _ => []) b hb t ht n
  refine ⟨s, hs, ?_⟩
  have h1 : fps (fun _ => []) [] (number unnamed 0 b.objs) = e :: es := by
    rw [← he]
    unfold fps feet
    apply List.filter_congr
    intro x _
    exact decide_eq_decide.2 (and_iff_left rfl)
  have h2 : ∀ k, k ≠ [] → fps (fun _ => []) k (number unnamed 0 b.objs) = [] := by
    intro k hk
    unfold fps
    rw [List.filter_eq_nil_iff]
    intro x _
    simp only [decide_eq_true_eq]
    exact fun hc => hk hc.2.symm
  have h3 : UMap.find? s.comps [] = some (fpOf cv b.fl (Comp.new (fpName e.2)) ((e :: es).flatMap inside)) := by
    rw [hf, h1]
    rfl
  have h4 : ∀ x ∈ s.comps, x.1 = [] := by
    intro x hx
    by_contra hne
    have := (UMap.find?_eq_some_iff hw x.1 x.2).2 hx
    rw [hf, h2 _ hne] at this
    cases this
  match hcs : s.comps with
  | [] => rw [hcs] at h3; cases h3
  | [x] =>
    rw [hcs, UMap.find?_cons, if_pos (h4 x (by rw [hcs]; simp))] at h3
    injection h3 with h3
    have hx := h4 x (by rw [hcs]; simp)
    rw [← h3, ← hx]
  | x :: y :: l =>
    exfalso
    rw [hcs] at hw h4
    have hx := h4 x (by simp)
    have hy := h4 y (by simp)
    have : (UMap.keys (x :: y :: l)).Nodup := hw
    simp only [UMap.keys, List.map_cons, List.nodup_cons, List.mem_cons] at this
    exact this.1 (Or.inl (hx.trans hy.symm))

/-- A board with at most one footprint is collected as it should be. -/
theorem c108_one_partial [DecidableEq K] (cv : Conv K) (b : KBoard) (hb : b.Ok cv) (t : Tree) (ht : b.IsTree t) (n : Nat)
    (e : Nat × Tree) (he : feet (number unnamed 0 b.objs) = [e]) : ∃ s, collect cv (fun _ => []) (n + 2) t = .ok s ∧
      s.comps.map Prod.snd = [fpOf cv b.fl (Comp.new (fpName e.2)) (inside e)] := by
  obtain ⟨s, hs, hc⟩ := c108_footprints_refuted cv b hb t ht n e [] he
  exact ⟨s, hs, by rw [hc]; simp⟩

/-- **C108 fails for drawings.** A line, circle or polygon whose layer is given beside the stroke, as KiCad writes it, has no layer. -/
theorem c108_layer_refuted [DecidableEq K] (cv : Conv K) (fl : List Char → Option Nat) (bs : List Tree)
    (hs : nodes "layer" (under "stroke" bs) = []) :
    ((∀ b ∈ bs, WfLine b) → ∃ l, extractLine cv fl bs = .ok l ∧ l.stroke.layer = none) ∧
    ((∀ b ∈ bs, WfCircle b) → ∃ l, extractCircle cv fl bs = .ok l ∧ l.stroke.layer = none) ∧
    ((∀ b ∈ bs, WfPoly b) → ∃ l, extractPoly cv fl bs = .ok l ∧ l.stroke.layer = none) := by
  have h : layerOf fl "layer" 0 (under "stroke" bs) = none := by unfold layerOf; rw [hs]; rfl
  exact ⟨fun hw => ⟨_, extractLine_spec cv fl bs hw, h⟩, fun hw => ⟨_, extractCircle_spec cv fl bs hw, h⟩,
    fun hw => ⟨_, extractPoly_spec cv fl bs hw, h⟩⟩

/-- **C108 fails for blind vias.** A via said to be `blind` (and neither `micro` nor `bline`) is taken for one through all layers. -/
theorem c108_blind_refuted (cv : Conv K) (fl : List Char → Option Nat) (bs : List Tree) (hw : ∀ b ∈ bs, WfVia b)
    (hm : nodes "micro" bs = []) (hl : nodes "bline" bs = []) (_hb : nodes "blind" bs ≠ []) :
    ∃ v, extractVia cv fl bs = .ok v ∧ v.type = .through := by
  refine ⟨_, extractVia_spec cv fl bs hw, ?_⟩
  have : (bs.filter fun t => decide (t.value = "micro".toList ∨ t.value = "bline".toList)) = [] := by
    rw [List.filter_eq_nil_iff]
    intro x hx
    simp only [decide_eq_true_eq, not_or]
    unfold nodes at hm hl
    rw [List.filter_eq_nil_iff] at hm hl
    exact ⟨fun h => hm x hx (decide_eq_true h), fun h => hl x hx (decide_eq_true h)⟩
  show viaTypeOf bs = _
  unfold viaTypeOf
  rw [this]
  rfl

/-- **C108 fails for short polygons.** A `pts` node with one point is read as none, and one without points is undefined behaviour. -/
theorem c108_points_refuted [DecidableEq K] (cv : Conv K) :
    (∀ p : Tree, 2 ≤ p.branches.length → extractPoints cv [p] = .ok []) ∧ extractPoints cv [] = .ub := by
  refine ⟨?_, rfl⟩
  intro p hp
  unfold extractPoints
  rw [foldR_one, getPair_ok cv _ 0 0 hp]
  simp

/-- the text that says the shape of a pad, and no drawing of its own -/
def PadIs (bs : List Tree) (shape : String) : Prop :=
  bs[2]?.map Tree.value = some shape.toList ∧ nodes "gr_poly" (under "primitives" (bs.drop 3)) = []

theorem pad_polygon [DecidableEq K] (cv : Conv K) (fl : List Char → Option Nat) (n : Nat) (bs : List Tree) (shape : String) (h : PadIs bs shape) :
    (padOf cv fl n bs).polygon = outlineOf (padShape shape.toList) (ptOf cv "size" (bs.drop 3)) := by
  unfold padOf
  simp only [h.1, h.2, Option.getD_some, List.filterMap_nil, List.getLast?_nil, Option.map_none, Option.getD_none, List.nil_append]

/-- the words of KiCad for types and shapes of pads -/
def typeWords : List (String × PType) := [("smd", .smd), ("thru_hole", .thruHole), ("connect", .connect), ("np_thru_hole", .npThruHole)]
def shapeWords : List (String × PShape) := [("rect", .rect), ("roundrect", .roundrect), ("circle", .circle), ("oval", .oval), ("trapezoid", .trapezoid)]

/-- **C108, types and shapes of pads.** A pad has the type and the shape its second and third word say, and unknown ones for all other words. -/
theorem c108_kind [DecidableEq K] (cv : Conv K) (fl : List Char → Option Nat) (n : Nat) (bs : List Tree) (h : WfPad bs) (ty sh : String)
    (ht : bs[1]?.map Tree.value = some ty.toList) (hs : bs[2]?.map Tree.value = some sh.toList) :
    ∃ p m, extractPad cv fl n bs = .ok (p, m) ∧
      (∀ e ∈ typeWords, e.1 = ty → p.type = e.2) ∧ (ty ∉ typeWords.map Prod.fst → p.type = .unknown) ∧
      (∀ e ∈ shapeWords, e.1 = sh → p.shape = e.2) ∧ (sh ∉ shapeWords.map Prod.fst → p.shape = .unknown) := by
  refine ⟨_, _, extractPad_spec cv fl n bs h, ?_⟩
  have e1 : (padOf cv fl n bs).type = padType ty.toList := by
    unfold padOf
    simp only [ht, Option.getD_some]
  have e2 : (padOf cv fl n bs).shape = padShape sh.toList := by
    unfold padOf
    simp only [hs, Option.getD_some]
  rw [e1, e2]
  refine ⟨?_, ?_, ?_, ?_⟩
  · intro e he ht
    subst ht
    simp only [typeWords, List.mem_cons, List.not_mem_nil, or_false] at he
    rcases he with rfl | rfl | rfl | rfl <;> decide
  · intro h
    simp only [typeWords, List.map_cons, List.map_nil, List.mem_cons, List.not_mem_nil, or_false, not_or] at h
    unfold padType
    rw [if_neg fun e => h.1 (String.toList_inj.1 e), if_neg fun e => h.2.1 (String.toList_inj.1 e), if_neg fun e => h.2.2.1 (String.toList_inj.1 e),
      if_neg fun e => h.2.2.2 (String.toList_inj.1 e)]
  · intro e he ht
    subst ht
    simp only [shapeWords, List.mem_cons, List.not_mem_nil, or_false] at he
    rcases he with rfl | rfl | rfl | rfl | rfl <;> decide
  · intro h
    simp only [shapeWords, List.map_cons, List.map_nil, List.mem_cons, List.not_mem_nil, or_false, not_or] at h
    unfold padShape
    rw [if_neg fun e => h.1 (String.toList_inj.1 e), if_neg fun e => h.2.1 (String.toList_inj.1 e), if_neg fun e => h.2.2.1 (String.toList_inj.1 e),
      if_neg fun e => h.2.2.2.1 (String.toList_inj.1 e), if_neg fun e => h.2.2.2.2 (String.toList_inj.1 e)]

/-- **C108, rectangular pads, partial.** The outline of a rectangular pad has the four corners of its size.  Missing: oval pads
(`c108_oval_refuted`); pads of other shapes get no outline. -/
theorem c108_rect_partial [DecidableEq K] (cv : Conv K) (fl : List Char → Option Nat) (n : Nat) (bs : List Tree) (h : WfPad bs)
    (hs : PadIs bs "rect") : ∃ p m, extractPad cv fl n bs = .ok (p, m) ∧ p.size = ptOf cv "size" (bs.drop 3) ∧
      p.polygon = [(-(p.size.1 / 2), p.size.2 / 2), (p.size.1 / 2, p.size.2 / 2), (p.size.1 / 2, -(p.size.2 / 2)), (-(p.size.1 / 2), -(p.size.2 / 2))] :=
  ⟨_, _, extractPad_spec cv fl n bs h, rfl, by rw [pad_polygon cv fl n bs "rect" hs]; rfl⟩

/-- **C108 fails for oval pads.** The outline of an oval pad that is not as wide as high does not reach its border. -/
theorem c108_oval_refuted [LinearOrder K] [IsStrictOrderedRing K] (cv : Conv K) (fl : List Char → Option Nat) (n : Nat) (bs : List Tree)
    (h : WfPad bs) (hs : PadIs bs "oval") (w hh : K) (hsz : ptOf cv "size" (bs.drop 3) = (w, hh)) (hw : 0 < w) (hp : 0 < hh) (hne : w ≠ hh) :
    ∃ p m, extractPad cv fl n bs = .ok (p, m) ∧ p.size = (w, hh) ∧ ∀ q ∈ p.polygon, q.1 ≠ w / 2 := by
  refine ⟨_, _, extractPad_spec cv fl n bs h, hsz, ?_⟩
  rw [pad_polygon cv fl n bs "oval" hs, hsz]
  have : padShape "oval".toList = .oval := by decide
  rw [this]
  intro q hq
  simp only [outlineOf, List.mem_cons, List.not_mem_nil, or_false] at hq
  rcases hq with rfl | rfl
  · show -(hh / 2) ≠ w / 2
    intro he
    linarith
  · show hh / 2 ≠ w / 2
    intro he
    apply hne
    linarith

/-! ### layers and nets: the model of the board alone -/

/-- footprints have no nodes that change layers or nets -/
def Plain (t : Tree) : Prop := t.value = "footprint".toList → ∀ a ∈ t.branches.drop 1, ∀ k ∈ deepNames, a.value ≠ k.toList

theorem onCur_db (s : St K) (f : Comp K → Comp K) : (s.onCur f).db = s.db := by
  unfold St.onCur
  cases s.cur <;> rfl

theorem bind_eq_ok {α β : Type} {r : Res α} {f : α → Res β} {b : β} (h : r.bind f = .ok b) : ∃ a, r = .ok a ∧ f a = .ok b := by
  cases r with
  | ok a => exact ⟨a, rfl, h⟩
  | ub => cases h
  | exn => cases h

theorem padNode_db [DecidableEq K] (cv : Conv K) (s s' : St K) (t : Tree) (h : padNode cv s t = .ok s') : s'.db = s.db := by
  obtain ⟨r, -, h⟩ := bind_eq_ok h
  injection h with h
  subst h
  exact onCur_db s _

theorem drawNode_db [DecidableEq K] (cv : Conv K) (s s' : St K) (t : Tree) (h : drawNode cv s t = .ok s') : s'.db = s.db := by
  unfold drawNode at h
  split_ifs at h
  all_goals first
    | exact padNode_db cv s s' t h
    | (obtain ⟨r, -, h⟩ := bind_eq_ok h; injection h with h; subst h; exact onCur_db s _)
    | (injection h with h; rw [h])

theorem foldR_inv {σ α : Type} (f : σ → α → Res σ) (P : σ → Prop) (as : List α) (hf : ∀ s, P s → ∀ a ∈ as, ∀ s', f s a = .ok s' → P s') :
    ∀ s s', P s → foldR f s as = .ok s' → P s' := by
  induction as with
  | nil => intro s s' hs h; injection h with h; exact h ▸ hs
  | cons a as ih =>
    intro s s' hs h
    obtain ⟨s1, h1, h2⟩ := bind_eq_ok h
    exact ih (fun s hs x hx => hf s hs x (by simp [hx])) s1 s' (hf s hs a (by simp) s1 h1) h2

/-- nodes below a depth are plain -/
def PlainTo : Nat → Tree → Prop
  | 0, _ => True
  | n + 1, t => Plain t ∧ (t.value = "setup".toList → ∀ a ∈ t.branches, PlainTo n a)

theorem node_db [DecidableEq K] (cv : Conv K) (mv : List Char → List Char) : ∀ (n : Nat) (s s' : St K) (t : Tree), PlainTo n t →
    node cv mv n s t = .ok s' → extractNode cv n s.db t = .ok s'.db
  | 0, s, s', t, _, h => by injection h with h; rw [h]; rfl
  | n + 1, s, s', t, hp, h => by
    rw [node] at h
    rw [extractNode]
    by_cases c1 : t.value = "layers".toList
    · rw [if_pos c1] at h ⊢
      obtain ⟨r, h1, h2⟩ := bind_eq_ok h
      injection h2 with h2
      rw [h1, ← h2]
    rw [if_neg c1] at h ⊢
    by_cases c2 : t.value = "stackup".toList
    · rw [if_pos c2] at h ⊢
      obtain ⟨r, h1, h2⟩ := bind_eq_ok h
      injection h2 with h2
      rw [h1, ← h2]
    rw [if_neg c2] at h ⊢
    by_cases c3 : t.value = "net".toList
    · rw [if_pos c3] at h ⊢
      obtain ⟨r, h1, h2⟩ := bind_eq_ok h
      injection h2 with h2
      rw [h1, ← h2]
    rw [if_neg c3] at h ⊢
    by_cases c4 : t.value = "setup".toList
    · rw [if_pos c4] at h ⊢
      have key : ∀ (as : List Tree), (∀ a ∈ as, PlainTo n a) → ∀ s s' : St K, foldR (node cv mv n) s as = .ok s' →
          as.foldl (fun (r : Res (KDb K)) a => r.bind fun db => extractNode cv n db a) (.ok s.db) = .ok s'.db := by
        intro as
        induction as with
        | nil => intro _ s s' h; injection h with h; rw [h]; rfl
        | cons a as ih =>
          intro ha s s' h
          obtain ⟨s1, h1, h2⟩ := bind_eq_ok h
          rw [List.foldl_cons, Res.bind_ok, node_db cv mv n s s1 a (ha a (by simp)) h1]
          exact ih (fun x hx => ha x (by simp [hx])) s1 s' h2
      exact key _ (hp.2 c4) s s' h
    rw [if_neg c4] at h ⊢
    by_cases c5 : t.value = "footprint".toList
    · rw [if_pos c5] at h
      obtain ⟨name, -, h⟩ := bind_eq_ok h
      obtain ⟨s1, h1, h2⟩ := bind_eq_ok h
      injection h2 with h2
      have : s1.db = s.db := by
        refine foldR_inv _ (fun x : St K => x.db = s.db) _ ?_ _ _ (by rfl) h1
        intro x hx a ha x' hstep
        split_ifs at hstep with d1 d2 d3
        · obtain ⟨v, -, hv⟩ := bind_eq_ok hstep
          injection hv with hv
          rw [← hv]
          exact hx
        · injection hstep with hstep
          rw [← hstep]
          exact hx
        · rw [padNode_db cv x x' a hstep, hx]
        · cases n with
          | zero => injection hstep with hstep; rw [← hstep]; exact hx
          | succ n =>
            rw [node_draw cv mv n x a (hp.1 c5 a ha)] at hstep
            rw [drawNode_db cv x x' a hstep, hx]
      rw [← h2]
      exact congrArg Res.ok this.symm
    · rw [if_neg c5] at h
      rw [drawNode_db cv s s' t h]

/-- Collecting a board gives the layers and nets of the model of C72, if the footprints have no nodes of layers and nets. -/
theorem c108_refines_c72 [DecidableEq K] (cv : Conv K) (mv : List Char → List Char) (n : Nat) (t : Tree)
    (hp : ∀ a ∈ t.branches, PlainTo n a) (s : St K) (h : collect cv mv n t = .ok s) : extractBoard cv n t = .ok s.db := by
  have key : ∀ (as : List Tree), (∀ a ∈ as, PlainTo n a) → ∀ s s' : St K, foldR (node cv mv n) s as = .ok s' →
      as.foldl (fun (r : Res (KDb K)) a => r.bind fun db => extractNode cv n db a) (.ok s.db) = .ok s'.db := by
    intro as
    induction as with
    | nil => intro _ s s' h; injection h with h; rw [h]; rfl
    | cons a as ih =>
      intro ha s s' h
      obtain ⟨s1, h1, h2⟩ := bind_eq_ok h
      rw [List.foldl_cons, Res.bind_ok, node_db cv mv n s s1 a (ha a (by simp)) h1]
      exact ih (fun x hx => ha x (by simp [hx])) s1 s' h2
  exact key _ hp St.new s h

/-! ### an example -/

/-- digits as numbers -/
def oConv : Conv Rat where
  stoi s := some (s.foldl (fun n c => 10 * n + (c.toNat - 48)) 0 : Nat)
  index s := s.foldl (fun n c => 10 * n + (c.toNat - 48)) 0
  num s := ((s.foldl (fun n c => 10 * n + (c.toNat - 48)) 0 : Nat) : Rat)
  word s := s

def lf (s : String) : Tree := .mk s.toList []
def nd (s : String) (l : List Tree) : Tree := .mk s.toList l

def oFoot (name : String) (x : String) (pad : String) : Tree :=
  nd "footprint" [lf name, nd "layer" [lf "F.Cu"], nd "at" [lf x, lf "5"],
    nd "pad" [lf pad, lf "smd", lf "rect", nd "at" [lf "1", lf "2"], nd "size" [lf "4", lf "2"], nd "layers" [lf "F.Cu"], nd "net" [lf "1"]],
    nd "fp_line" [nd "start" [lf "0", lf "0"], nd "end" [lf "3", lf "0"], nd "stroke" [nd "width" [lf "1"], nd "type" [lf "solid"]],
      nd "layer" [lf "F.Cu"]]]

/-- two footprints, a segment, a blind via and a zone -/
def oBoard : KBoard where
  layers := [⟨"0".toList, 0, "F.Cu".toList, "signal".toList, []⟩, ⟨"31".toList, 31, "B.Cu".toList, "signal".toList, []⟩]
  stack := [⟨"F.Cu".toList, some "copper".toList, some "1".toList, none, []⟩]
  objs := [nd "net" [lf "1", lf "GND"], oFoot "R_0402" "10" "1", oFoot "C_0603" "20" "",
    nd "segment" [nd "start" [lf "1", lf "1"], nd "end" [lf "2", lf "7"], nd "width" [lf "3"], nd "layer" [lf "B.Cu"], nd "net" [lf "1"]],
    nd "via" [lf "blind", nd "at" [lf "4", lf "4"], nd "size" [lf "6"], nd "layers" [lf "F.Cu", lf "B.Cu"], nd "net" [lf "1"]],
    nd "zone" [nd "net" [lf "1"], nd "layer" [lf "F.Cu"],
      nd "polygon" [nd "pts" [nd "xy" [lf "0", lf "0"], nd "xy" [lf "9", lf "0"], nd "xy" [lf "9", lf "9"], nd "xy" [lf "0", lf "0"]]]]]

def oTree : Tree :=
  nd "kicad_pcb" (lf "version" :: nd "layers" (oBoard.layers.map LayerLine.tree) ::
    nd "setup" [nd "stackup" (oBoard.stack.map StackLine.tree)] :: oBoard.objs)

instance (k : String) (n : Nat) (a : Tree) : Decidable (Has k n a) := by unfold Has; infer_instance
instance (a : Tree) : Decidable (WfPts a) := by unfold WfPts; infer_instance
instance (a : Tree) : Decidable (WfStroke a) := by unfold WfStroke; infer_instance
instance (a : Tree) : Decidable (WfSegment a) := by unfold WfSegment; infer_instance
instance (a : Tree) : Decidable (WfZone a) := by unfold WfZone; infer_instance
instance (a : Tree) : Decidable (WfVia a) := by unfold WfVia; infer_instance
instance (a : Tree) : Decidable (WfLine a) := by unfold WfLine; infer_instance
instance (a : Tree) : Decidable (WfCircle a) := by unfold WfCircle; infer_instance
instance (a : Tree) : Decidable (WfPoly a) := by unfold WfPoly; infer_instance
instance (o : Option Tree) (P : Tree → Prop) [DecidablePred P] : Decidable (∃ p, o = some p ∧ P p) :=
  match o with
  | none => isFalse (by simp)
  | some p => if h : P p then isTrue ⟨p, rfl, h⟩ else isFalse (by rintro ⟨q, hq, hp⟩; injection hq with hq; exact h (hq ▸ hp))
instance (a : Tree) : Decidable (WfPadAttr a) := by unfold WfPadAttr; infer_instance
instance (bs : List Tree) : Decidable (WfPad bs) := by unfold WfPad; infer_instance

/-- a drawing that is not an arc can be read -/
def NoArc (t : Tree) : Prop := ¬ (t.value = "fp_arc".toList ∨ t.value = "gr_arc".toList) ∧
    (t.value = "segment".toList → ∀ b ∈ t.branches, WfSegment b) ∧ (t.value = "zone".toList → ∀ b ∈ t.branches, WfZone b) ∧
    (t.value = "via".toList → ∀ b ∈ t.branches, WfVia b) ∧ (t.value = "pad".toList → WfPad t.branches) ∧
    (t.value = "fp_line".toList ∨ t.value = "gr_line".toList → ∀ b ∈ t.branches, WfLine b) ∧
    (t.value = "fp_poly".toList → ∀ b ∈ t.branches, WfPoly b) ∧
    (t.value = "fp_circle".toList ∨ t.value = "gr_circle".toList → ∀ b ∈ t.branches, WfCircle b)

instance (t : Tree) : Decidable (NoArc t) := by unfold NoArc; infer_instance

theorem NoArc.wf {t : Tree} (h : NoArc t) : WfDraw t :=
  ⟨h.2.1, h.2.2.1, h.2.2.2.1, h.2.2.2.2.1, fun ha => absurd ha h.1, h.2.2.2.2.2.1, h.2.2.2.2.2.2.1, h.2.2.2.2.2.2.2⟩

theorem oBoard_ok : oBoard.Ok oConv where
  ids := by decide
  names := by decide
  more := by decide
  objs := by
    have hp : ∀ t ∈ oBoard.objs, ∀ a ∈ t.branches.drop 1, t.value = "footprint".toList → WfPart a := by
      have : ∀ t ∈ oBoard.objs, ∀ a ∈ t.branches.drop 1, t.value = "footprint".toList →
          (NoArc a ∧ (∀ k ∈ deepNames, a.value ≠ k.toList) ∧ Has "layer" 1 a) := by decide +kernel
      intro t ht a ha hf
      exact ⟨(this t ht a ha hf).1.wf, (this t ht a ha hf).2⟩
    have h1 : ∀ t ∈ oBoard.objs, NoArc t ∧ Has "net" 2 t ∧ (t.value = "footprint".toList → 1 ≤ t.branches.length) ∧
        ∀ k ∈ ["layers", "stackup", "setup"], t.value ≠ k.toList := by decide +kernel
    intro t ht
    exact ⟨(h1 t ht).1.wf, (h1 t ht).2.1, fun hf => ⟨(h1 t ht).2.2.1 hf, fun a ha => hp t ht a ha hf⟩, (h1 t ht).2.2.2⟩

theorem oBoard_tree : oBoard.IsTree oTree := by
  refine ⟨"kicad_pcb".toList, [lf "version"], [], [], [], [], ?_, by simp, rfl⟩
  intro x hx
  simp only [List.append_nil, List.mem_singleton] at hx
  subst hx
  unfold Quiet
  decide

/-- hypotheses of the theorems on boards; and what becomes of the two footprints: one component of the name of the first at the place of
the second, with the pads of both, the lines without a layer; the via is not blind -/
example : oBoard.Ok oConv ∧ oBoard.IsTree oTree := ⟨oBoard_ok, oBoard_tree⟩

example : ((feet (number unnamed 0 oBoard.objs)).map fun e => fpName e.2) = ["R_0402".toList, "C_0603".toList] := by decide +kernel

example : (collect oConv (fun _ => []) 2 oTree).bind (fun s => .ok ((s.comps.map fun e => e.2.name, s.comps.map fun e => e.2.loc,
      s.comps.map fun e => e.2.pads.map Pad.name), s.comps.map fun e => e.2.lines.map fun l => l.stroke.layer)) =
    .ok ((["R_0402".toList], [(20, 5)], [["1".toList, "Unnamed0".toList]]), [[none, none]]) := rfl

example : (collect oConv id 2 oTree).bind (fun s => .ok ((s.comps.map fun e => e.2.name, s.comps.map fun e => e.2.loc,
      s.comps.map fun e => e.2.pads.map Pad.name), s.comps.map fun e => e.2.layer)) =
    .ok ((["R_0402".toList, "C_0603".toList], [(10, 5), (20, 5)], [["1".toList], ["Unnamed0".toList]]), [some 0, some 0]) := rfl

example : (collect oConv id 2 oTree).bind (fun s => .ok (s.root.segments, s.root.zones, s.root.vias)) =
    .ok ([⟨some 1, some 31, 3, (1, 1), (2, 7)⟩], [⟨some 1, some 0, [(0, 0), (9, 0), (9, 9)], []⟩],
      [⟨.through, some 1, 6, (4, 4), some 0, some 31⟩]) := by decide +kernel

/-- an oval pad of 4 by 2 -/
def ovalPad : List Tree := [lf "1", lf "smd", lf "oval", nd "at" [lf "0", lf "0"], nd "size" [lf "4", lf "2"]]

example : WfPad ovalPad ∧ PadIs ovalPad "oval" ∧ ptOf oConv "size" (ovalPad.drop 3) = (4, 2) :=
  ⟨by decide, ⟨by decide, by unfold nodes; decide +kernel⟩, by decide +kernel⟩

end Ecad.KiCad
