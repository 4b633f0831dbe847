import Verif.KiCad.ObjSpec
import Verif.KiCad.BoardProps
/-!
C108: where the objects of a board go.
-/
namespace Ecad.KiCad

variable {K : Type} [Field K]

/-- 1 for a pad without a name -/
def unnamedPad (t : Tree) : Nat := if t.value = "pad".toList ∧ t.branches[0]?.map Tree.value = some [] then 1 else 0

/-- the number of pads without a name in a node of a board -/
def unnamed (t : Tree) : Nat := if t.value = "footprint".toList then ((t.branches.drop 1).map unnamedPad).sum else unnamedPad t

/-- every node with the number of pads without a name before it -/
def number (f : Tree → Nat) : Nat → List Tree → List (Nat × Tree)
  | _, [] => []
  | n, t :: ts => (n, t) :: number f (n + f t) ts

/-- the nodes of some names -/
def sel (ks : List String) (nts : List (Nat × Tree)) : List (Nat × Tree) := nts.filter fun e => decide (∃ k ∈ ks, e.2.value = k.toList)

/-- a component with the objects of the nodes added, kind by kind -/
def addAll [DecidableEq K] (cv : Conv K) (fl : List Char → Option Nat) (c : Comp K) (nts : List (Nat × Tree)) : Comp K :=
  { c with
    vias := c.vias ++ (sel ["via"] nts).map fun e => viaOf cv fl e.2.branches
    arcs := c.arcs ++ (sel ["fp_arc", "gr_arc"] nts).map fun e => arcOf cv e.2.branches
    pads := c.pads ++ (sel ["pad"] nts).map fun e => padOf cv fl e.1 e.2.branches
    lines := c.lines ++ (sel ["fp_line", "gr_line"] nts).map fun e => lineOf cv fl e.2.branches
    polys := c.polys ++ (sel ["fp_poly"] nts).map fun e => polyOf cv fl e.2.branches
    zones := c.zones ++ (sel ["zone"] nts).map fun e => zoneOf cv fl e.2.branches
    circles := c.circles ++ (sel ["fp_circle", "gr_circle"] nts).map fun e => circleOf cv fl e.2.branches
    segments := c.segments ++ (sel ["segment"] nts).map fun e => segmentOf cv fl e.2.branches }

/-- a component with the place given by the nodes: the last one counts -/
def place (cv : Conv K) (fl : List Char → Option Nat) (c : Comp K) (bs : List Tree) : Comp K :=
  { c with
    layer := ((lastVal "layer" 0 bs).map fl).getD c.layer
    flipped := ((lastVal "layer" 0 bs).map fun x => decide (fl x ≠ some 0)).getD c.flipped
    loc := (((lastVal "at" 0 bs).map cv.num).getD c.loc.1, ((lastVal "at" 1 bs).map cv.num).getD c.loc.2)
    angle := ((lastVal "at" 2 bs).map cv.num).getD c.angle }

/-- a component with what the nodes of a footprint say -/
def fpOf [DecidableEq K] (cv : Conv K) (fl : List Char → Option Nat) (c : Comp K) (nts : List (Nat × Tree)) : Comp K :=
  addAll cv fl (place cv fl c (nts.map Prod.snd)) nts

/-- a drawing can be read -/
structure WfDraw (t : Tree) : Prop where
  segment : t.value = "segment".toList → ∀ b ∈ t.branches, WfSegment b
  zone : t.value = "zone".toList → ∀ b ∈ t.branches, WfZone b
  via : t.value = "via".toList → ∀ b ∈ t.branches, WfVia b
  pad : t.value = "pad".toList → WfPad t.branches
  arc : t.value = "fp_arc".toList ∨ t.value = "gr_arc".toList → WfArc t.branches
  line : t.value = "fp_line".toList ∨ t.value = "gr_line".toList → ∀ b ∈ t.branches, WfLine b
  poly : t.value = "fp_poly".toList → ∀ b ∈ t.branches, WfPoly b
  circle : t.value = "fp_circle".toList ∨ t.value = "gr_circle".toList → ∀ b ∈ t.branches, WfCircle b

theorem sel_append (ks : List String) (a b : List (Nat × Tree)) : sel ks (a ++ b) = sel ks a ++ sel ks b := List.filter_append ..

theorem addAll_append [DecidableEq K] (cv : Conv K) (fl : List Char → Option Nat) (c : Comp K) (a b : List (Nat × Tree)) :
    addAll cv fl c (a ++ b) = addAll cv fl (addAll cv fl c a) b := by
  simp only [addAll, sel_append, List.map_append, List.append_assoc]

theorem addAll_nil [DecidableEq K] (cv : Conv K) (fl : List Char → Option Nat) (c : Comp K) : addAll cv fl c [] = c := by
  simp [addAll, sel]

theorem lastVal_append (k : String) (i : Nat) (as bs : List Tree) : lastVal k i (as ++ bs) = (lastVal k i bs).or (lastVal k i as) := by
  unfold lastVal
  rw [nodes_append, List.filterMap_append, List.getLast?_append]

theorem place_append (cv : Conv K) (fl : List Char → Option Nat) (c : Comp K) (a b : List Tree) :
    place cv fl c (a ++ b) = place cv fl (place cv fl c a) b := by
  simp only [place, lastVal_append]
  cases lastVal "layer" 0 b <;> cases lastVal "at" 0 b <;> cases lastVal "at" 1 b <;> cases lastVal "at" 2 b <;> simp

theorem place_nil (cv : Conv K) (fl : List Char → Option Nat) (c : Comp K) : place cv fl c [] = c := by
  simp [place, lastVal, nodes]

theorem place_addAll [DecidableEq K] (cv : Conv K) (fl : List Char → Option Nat) (c : Comp K) (nts : List (Nat × Tree)) (bs : List Tree) :
    place cv fl (addAll cv fl c nts) bs = addAll cv fl (place cv fl c bs) nts := rfl

theorem fpOf_append [DecidableEq K] (cv : Conv K) (fl : List Char → Option Nat) (c : Comp K) (a b : List (Nat × Tree)) :
    fpOf cv fl c (a ++ b) = fpOf cv fl (fpOf cv fl c a) b := by
  unfold fpOf
  rw [List.map_append, place_append, addAll_append, place_addAll]

theorem fpOf_nil [DecidableEq K] (cv : Conv K) (fl : List Char → Option Nat) (c : Comp K) : fpOf cv fl c [] = c := by
  unfold fpOf
  rw [List.map_nil, place_nil, addAll_nil]

/-- nodes that are none of the drawings -/
def drawNames : List String := ["segment", "zone", "via", "pad", "fp_arc", "gr_arc", "fp_line", "gr_line", "fp_poly", "fp_circle", "gr_circle"]

theorem addAll_other [DecidableEq K] (cv : Conv K) (fl : List Char → Option Nat) (c : Comp K) (n : Nat) (t : Tree)
    (h : ∀ k ∈ drawNames, t.value ≠ k.toList) : addAll cv fl c [(n, t)] = c := by
  have hs : ∀ ks : List String, (∀ k ∈ ks, k ∈ drawNames) → sel ks [(n, t)] = [] := by
    intro ks hk
    unfold sel
    rw [List.filter_cons_of_neg, List.filter_nil]
    simp only [decide_eq_true_eq, not_exists, not_and]
    intro k hks
    exact h k (hk k hks)
  unfold addAll
  rw [hs ["via"] (by decide), hs ["fp_arc", "gr_arc"] (by decide), hs ["pad"] (by decide), hs ["fp_line", "gr_line"] (by decide),
    hs ["fp_poly"] (by decide), hs ["zone"] (by decide), hs ["fp_circle", "gr_circle"] (by decide), hs ["segment"] (by decide)]
  simp

theorem onCur_congr (s : St K) (f g : Comp K → Comp K) (h : ∀ c, f c = g c) : s.onCur f = s.onCur g := by
  rw [funext h]

theorem drawNode_spec [DecidableEq K] (cv : Conv K) (s : St K) (t : Tree) (h : WfDraw t) :
    drawNode cv s t = .ok { s.onCur (fun c => addAll cv s.fl c [(s.noName, t)]) with noName := s.noName + unnamedPad t } := by
  have h0 : t.value ≠ "pad".toList → unnamedPad t = 0 := by intro hn; unfold unnamedPad; rw [if_neg (fun hc => hn hc.1)]
  have hn : ∀ f : Comp K → Comp K, (s.onCur f).noName = s.noName := by
    intro f; unfold St.onCur; cases s.cur <;> rfl
  have fin : ∀ f : Comp K → Comp K, t.value ≠ "pad".toList → (∀ c, f c = addAll cv s.fl c [(s.noName, t)]) →
      s.onCur f = { s.onCur (fun c => addAll cv s.fl c [(s.noName, t)]) with noName := s.noName + unnamedPad t } := by
    intro f hp hf
    rw [onCur_congr s f _ hf, h0 hp]
    conv_lhs => rw [← show ({ s.onCur (fun c => addAll cv s.fl c [(s.noName, t)]) with
      noName := (s.onCur (fun c => addAll cv s.fl c [(s.noName, t)])).noName } : St K) = s.onCur (fun c => addAll cv s.fl c [(s.noName, t)]) from rfl, hn]
    rfl
  unfold drawNode
  by_cases c1 : t.value = "segment".toList
  · rw [if_pos c1, extractSegment_spec cv s.fl _ (h.segment c1), Res.bind_ok,
      fin _ (key_ne c1 (by decide)) (fun c => by simp [addAll, sel, c1])]
  by_cases c2 : t.value = "zone".toList
  · rw [if_neg c1, if_pos c2, extractZone_spec cv s.fl _ (h.zone c2), Res.bind_ok,
      fin _ (key_ne c2 (by decide)) (fun c => by simp [addAll, sel, c2])]
  by_cases c3 : t.value = "via".toList
  · rw [if_neg c1, if_neg c2, if_pos c3, extractVia_spec cv s.fl _ (h.via c3), Res.bind_ok,
      fin _ (key_ne c3 (by decide)) (fun c => by simp [addAll, sel, c3])]
  by_cases c4 : t.value = "pad".toList
  · rw [if_neg c1, if_neg c2, if_neg c3, if_pos c4, padNode, extractPad_spec cv s.fl _ _ (h.pad c4), Res.bind_ok]
    congr 1
    have : (fun c : Comp K => { c with pads := c.pads ++ [padOf cv s.fl s.noName t.branches] }) =
        fun c => addAll cv s.fl c [(s.noName, t)] := by
      funext c; simp [addAll, sel, c4]
    simp only [this]
    congr 1
    unfold unnamedPad
    simp only [c4, true_and]
    split <;> rfl
  by_cases c5 : t.value = "fp_arc".toList ∨ t.value = "gr_arc".toList
  · rw [if_neg c1, if_neg c2, if_neg c3, if_neg c4, if_pos c5, extractArc_spec cv _ (h.arc c5), Res.bind_ok,
      fin _ c4 (fun c => by rcases c5 with c5 | c5 <;> simp [addAll, sel, c5])]
  by_cases c6 : t.value = "fp_line".toList ∨ t.value = "gr_line".toList
  · rw [if_neg c1, if_neg c2, if_neg c3, if_neg c4, if_neg c5, if_pos c6, extractLine_spec cv s.fl _ (h.line c6), Res.bind_ok,
      fin _ c4 (fun c => by rcases c6 with c6 | c6 <;> simp [addAll, sel, c6])]
  by_cases c7 : t.value = "fp_poly".toList
  · rw [if_neg c1, if_neg c2, if_neg c3, if_neg c4, if_neg c5, if_neg c6, if_pos c7, extractPoly_spec cv s.fl _ (h.poly c7), Res.bind_ok,
      fin _ c4 (fun c => by simp [addAll, sel, c7])]
  by_cases c8 : t.value = "fp_circle".toList ∨ t.value = "gr_circle".toList
  · rw [if_neg c1, if_neg c2, if_neg c3, if_neg c4, if_neg c5, if_neg c6, if_neg c7, if_pos c8, extractCircle_spec cv s.fl _ (h.circle c8), Res.bind_ok,
      fin _ c4 (fun c => by rcases c8 with c8 | c8 <;> simp [addAll, sel, c8])]
  rw [if_neg c1, if_neg c2, if_neg c3, if_neg c4, if_neg c5, if_neg c6, if_neg c7, if_neg c8]
  rw [← fin id c4 (fun c => by
    rw [addAll_other]
    · rfl
    · push Not at c5 c6 c8
      simp only [drawNames, List.forall_mem_cons]
      exact ⟨c1, c2, c3, c4, c5.1, c5.2, c6.1, c6.2, c7, c8.1, c8.2, by simp⟩)]
  obtain ⟨db, comps, root, nn, cur⟩ := s
  cases cur with
  | none => rfl
  | some k => simp [St.onCur, St.onComp]

/-- names of nodes that change layers and nets or hold other nodes -/
def deepNames : List String := ["layers", "stackup", "net", "setup", "footprint"]

theorem node_draw [DecidableEq K] (cv : Conv K) (mv : List Char → List Char) (n : Nat) (s : St K) (t : Tree)
    (h : ∀ k ∈ deepNames, t.value ≠ k.toList) : node cv mv (n + 1) s t = drawNode cv s t := by
  simp only [deepNames, List.forall_mem_cons] at h
  obtain ⟨h1, h2, h3, h4, h5, _⟩ := h
  rw [node, if_neg h1, if_neg h2, if_neg h3, if_neg h4, if_neg h5]

/-- a node of a footprint can be read -/
def WfPart (a : Tree) : Prop := WfDraw a ∧ (∀ k ∈ deepNames, a.value ≠ k.toList) ∧ Has "layer" 1 a

theorem onComp_fl (s : St K) (k : List Char) (f : Comp K → Comp K) : (s.onComp k f).fl = s.fl := rfl

theorem onComp_onComp (s : St K) (k : List Char) (f g : Comp K → Comp K) : (s.onComp k f).onComp k g = s.onComp k (fun c => g (f c)) := by
  unfold St.onComp
  simp only [List.map_map]
  congr 1
  apply List.map_congr_left
  intro e _
  by_cases h : e.1 = k <;> simp [h]

theorem lastVal_one (k : String) (i : Nat) (a : Tree) : lastVal k i [a] = if a.value = k.toList then a.branches[i]?.map Tree.value else none := by
  have := lastVal_snoc k i [] a
  rw [List.nil_append] at this
  rw [this]
  simp [lastVal, nodes]

/-- the nodes of a footprint, one after the other -/
theorem foot_fold [DecidableEq K] (cv : Conv K) (mv : List Char → List Char) (n : Nat) (key : List Char) (as : List Tree) :
    ∀ s : St K, s.cur = some key → (∀ a ∈ as, WfPart a) →
    foldR (fun s a =>
          if a.value = "layer".toList then fpLayer s key a.branches
          else if a.value = "at".toList then .ok (fpAt cv s key a.branches)
          else if a.value = "pad".toList then padNode cv s a
          else node cv mv (n + 1) s a) s as =
      .ok { s.onComp key (fun c => fpOf cv s.fl c (number unnamedPad s.noName as)) with noName := s.noName + (as.map unnamedPad).sum } := by
  induction as with
  | nil =>
    intro s _ _
    have : (fun c : Comp K => fpOf cv s.fl c (number unnamedPad s.noName [])) = id := by
      funext c; exact fpOf_nil cv s.fl c
    rw [foldR, this]
    unfold St.onComp
    cases s
    simp
  | cons a as ih =>
    intro s hc hw
    have ha := hw a (by simp)
    have hstep : (if a.value = "layer".toList then fpLayer s key a.branches
          else if a.value = "at".toList then .ok (fpAt cv s key a.branches)
          else if a.value = "pad".toList then padNode cv s a
          else node cv mv (n + 1) s a) =
        .ok { s.onComp key (fun c => fpOf cv s.fl c [(s.noName, a)]) with noName := s.noName + unnamedPad a } := by
      by_cases c1 : a.value = "layer".toList
      · have hl := ha.2.2 c1
        have h0 : a.branches[0]? = some a.branches[0] := List.getElem?_eq_getElem _
        have hup : unnamedPad a = 0 := by unfold unnamedPad; rw [if_neg (fun hc => key_ne c1 (by decide) hc.1)]
        have hat := key_ne c1 (l := "at") (by decide)
        have hd : ∀ k ∈ drawNames, a.value ≠ k.toList := by
          intro k hk; exact key_ne c1 (by rintro rfl; revert hk; decide)
        rw [if_pos c1, fpLayer, val_some h0, Res.bind_ok, hup]
        congr 1
        have : (fun c : Comp K => fpOf cv s.fl c [(s.noName, a)]) =
            fun c => { c with layer := s.fl a.branches[0].value, flipped := decide (s.fl a.branches[0].value ≠ some 0) } := by
          funext c
          unfold fpOf
          rw [addAll_other cv s.fl _ _ _ hd]
          simp only [List.map_cons, List.map_nil, place, lastVal_one, if_pos c1, if_neg hat, h0]
          rfl
        rw [this]
        rfl
      by_cases c2 : a.value = "at".toList
      · have hup : unnamedPad a = 0 := by unfold unnamedPad; rw [if_neg (fun hc => key_ne c2 (by decide) hc.1)]
        have hd : ∀ k ∈ drawNames, a.value ≠ k.toList := by
          intro k hk; exact key_ne c2 (by rintro rfl; revert hk; decide)
        rw [if_neg c1, if_pos c2, hup]
        congr 1
        have : (fun c : Comp K => fpOf cv s.fl c [(s.noName, a)]) =
            fun c => { c with loc := (tryNum cv c.loc.1 a.branches 0, tryNum cv c.loc.2 a.branches 1), angle := tryNum cv c.angle a.branches 2 } := by
          funext c
          unfold fpOf
          rw [addAll_other cv s.fl _ _ _ hd]
          simp only [List.map_cons, List.map_nil, place, lastVal_one, if_pos c2, if_neg c1, Option.map_map]
          rfl
        rw [this]
        rfl
      have hdraw : drawNode cv s a = .ok { s.onComp key (fun c => fpOf cv s.fl c [(s.noName, a)]) with noName := s.noName + unnamedPad a } := by
        rw [drawNode_spec cv s a ha.1]
        have : (fun c : Comp K => fpOf cv s.fl c [(s.noName, a)]) = fun c => addAll cv s.fl c [(s.noName, a)] := by
          funext c
          unfold fpOf
          congr 1
          simp only [List.map_cons, List.map_nil, place, lastVal_one, if_neg c1, if_neg c2]
          rfl
        rw [this]
        unfold St.onCur
        rw [hc]
      rw [if_neg c1, if_neg c2]
      by_cases c4 : a.value = "pad".toList
      · rw [if_pos c4, ← hdraw]
        unfold drawNode
        rw [if_neg (key_ne c4 (by decide)), if_neg (key_ne c4 (by decide)), if_neg (key_ne c4 (by decide)), if_pos c4]
      · rw [if_neg c4, node_draw cv mv n s a ha.2.1, hdraw]
    rw [foldR]
    dsimp only
    rw [hstep, Res.bind_ok]
    refine (ih { s.onComp key (fun c => fpOf cv s.fl c [(s.noName, a)]) with noName := s.noName + unnamedPad a } hc
      (fun x hx => hw x (by simp [hx]))).trans ?_
    congr 1
    simp only [List.map_cons, List.sum_cons, number]
    have e1 : ∀ c : Comp K, fpOf cv s.fl c ((s.noName, a) :: number unnamedPad (s.noName + unnamedPad a) as) =
        fpOf cv s.fl (fpOf cv s.fl c [(s.noName, a)]) (number unnamedPad (s.noName + unnamedPad a) as) := by
      intro c
      rw [← fpOf_append]
      rfl
    have e2 := onComp_onComp s key (fun c => fpOf cv s.fl c [(s.noName, a)])
      (fun c => fpOf cv s.fl c (number unnamedPad (s.noName + unnamedPad a) as))
    simp only [e1]
    rw [← e2, Nat.add_assoc]
    rfl

end Ecad.KiCad
