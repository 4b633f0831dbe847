import Verif.KiCad.ObjModel
import Mathlib.Data.List.TakeWhile
/-!
C108: what the nodes of a board say, independent of how they are read: the last value given under a name counts.
-/
namespace Ecad.KiCad

variable {K : Type} [Field K]

/-- the nodes of a name -/
def nodes (k : String) (bs : List Tree) : List Tree := bs.filter fun t => t.value = k.toList

/-- what is inside the nodes of a name -/
def under (k : String) (bs : List Tree) : List Tree := (nodes k bs).flatMap Tree.branches

/-- the last i-th value given under a name -/
def lastVal (k : String) (i : Nat) (bs : List Tree) : Option (List Char) :=
  ((nodes k bs).filterMap fun t => t.branches[i]?.map Tree.value).getLast?

/-- a number, 0 if it is not given -/
def numOf (cv : Conv K) (k : String) (i : Nat) (bs : List Tree) : K := ((lastVal k i bs).map cv.num).getD 0

/-- a point, the origin if it is not given -/
def ptOf (cv : Conv K) (k : String) (bs : List Tree) : K × K := (numOf cv k 0 bs, numOf cv k 1 bs)

/-- a net -/
def idxOf (cv : Conv K) (k : String) (bs : List Tree) : Option Nat := (lastVal k 0 bs).map cv.index

/-- a layer: the last of the known ones -/
def layerOf (fl : List Char → Option Nat) (k : String) (i : Nat) (bs : List Tree) : Option Nat :=
  ((nodes k bs).filterMap fun t => t.branches[i]?.bind fun v => fl v.value).getLast?

/-- whether something is said to be solid -/
def solidOf (k : String) (bs : List Tree) : Bool :=
  (nodes k bs).any fun t => decide (t.branches.head?.map Tree.value = some "solid".toList)

/-- the corners of a polygon: a last point equal to the first is not a further corner -/
def ring {α : Type} [DecidableEq α] : List α → List α
  | [] => []
  | a :: ps => a :: if ps.getLast? = some a then ps.dropLast else ps

/-- the points of a `pts` node -/
def pointsOf [DecidableEq K] (cv : Conv K) (t : Tree) : List (K × K) :=
  ring (t.branches.map fun p => ((p.branches[0]?.map fun v => cv.num v.value).getD 0, (p.branches[1]?.map fun v => cv.num v.value).getD 0))

/-- the `pts` node can be read: at least two points, each with two coordinates -/
def WfPts (t : Tree) : Prop := 2 ≤ t.branches.length ∧ ∀ p ∈ t.branches, 2 ≤ p.branches.length

/-- every node of the name has so many values -/
def Has (k : String) (n : Nat) (a : Tree) : Prop := a.value = k.toList → n ≤ a.branches.length

/-- a stroke -/
def strokeOf (cv : Conv K) (fl : List Char → Option Nat) (bs : List Tree) : Stroke K :=
  ⟨solidOf "type" bs, solidOf "fill" bs, layerOf fl "layer" 0 bs, numOf cv "width" 0 bs⟩

def WfStroke (a : Tree) : Prop := Has "width" 1 a ∧ Has "type" 1 a ∧ Has "fill" 1 a ∧ Has "layer" 1 a

/-- a segment -/
def segmentOf (cv : Conv K) (fl : List Char → Option Nat) (bs : List Tree) : Segment K :=
  ⟨idxOf cv "net" bs, layerOf fl "layer" 0 bs, numOf cv "width" 0 bs, ptOf cv "start" bs, ptOf cv "end" bs⟩

def WfSegment (a : Tree) : Prop := Has "start" 2 a ∧ Has "end" 2 a ∧ Has "width" 1 a ∧ Has "net" 1 a ∧ Has "layer" 1 a

/-- a zone: its outline is the last one given, its fillings are all of them -/
def zoneOf [DecidableEq K] (cv : Conv K) (fl : List Char → Option Nat) (bs : List Tree) : Zone K :=
  ⟨idxOf cv "net" bs, layerOf fl "layer" 0 bs, ((nodes "pts" (under "polygon" bs)).getLast?.map (pointsOf cv)).getD [],
    (nodes "pts" (under "filled_polygon" bs)).map (pointsOf cv)⟩

def WfZone (a : Tree) : Prop :=
  Has "net" 1 a ∧ Has "layer" 1 a ∧
  (a.value = "polygon".toList → ∀ p ∈ nodes "pts" a.branches, WfPts p) ∧
  (a.value = "filled_polygon".toList → ∀ p ∈ nodes "pts" a.branches, WfPts p)

/-- the kind of a via as the code understands it -/
def viaTypeOf (bs : List Tree) : VType :=
  match (bs.filter fun t => decide (t.value = "micro".toList ∨ t.value = "bline".toList)).getLast? with
  | none => .through
  | some t => if t.value = "micro".toList then .micro else .blind

/-- a via -/
def viaOf (cv : Conv K) (fl : List Char → Option Nat) (bs : List Tree) : Via K :=
  ⟨viaTypeOf bs, idxOf cv "net" bs, numOf cv "size" 0 bs, ptOf cv "at" bs, layerOf fl "layers" 0 bs, layerOf fl "layers" 1 bs⟩

def WfVia (a : Tree) : Prop := Has "at" 2 a ∧ Has "size" 1 a ∧ Has "net" 1 a ∧ Has "layers" 2 a

/-- a circle -/
def circleOf (cv : Conv K) (fl : List Char → Option Nat) (bs : List Tree) : Circle K :=
  ⟨strokeOf cv fl (under "stroke" bs), ptOf cv "center" bs, ptOf cv "end" bs⟩

def WfCircle (a : Tree) : Prop := Has "center" 2 a ∧ Has "end" 2 a ∧ (a.value = "stroke".toList → ∀ x ∈ a.branches, WfStroke x)

/-- a line -/
def lineOf (cv : Conv K) (fl : List Char → Option Nat) (bs : List Tree) : Line K :=
  ⟨strokeOf cv fl (under "stroke" bs), ptOf cv "start" bs, ptOf cv "end" bs⟩

def WfLine (a : Tree) : Prop := Has "start" 2 a ∧ Has "end" 2 a ∧ (a.value = "stroke".toList → ∀ x ∈ a.branches, WfStroke x)

/-- a polygon -/
def polyOf [DecidableEq K] (cv : Conv K) (fl : List Char → Option Nat) (bs : List Tree) : Poly K :=
  ⟨strokeOf cv fl (under "stroke" bs), ((nodes "pts" bs).getLast?.map (pointsOf cv)).getD []⟩

def WfPoly (a : Tree) : Prop := (a.value = "pts".toList → WfPts a) ∧ (a.value = "stroke".toList → ∀ x ∈ a.branches, WfStroke x)

/-- the i-th value of the j-th node -/
def cell (bs : List Tree) (j i : Nat) : Option (List Char) := bs[j]?.bind fun t => t.branches[i]?.map Tree.value

/-- an arc: start, end, angle and width are the first, second, third and fifth node -/
def arcOf (cv : Conv K) (bs : List Tree) : Arc K :=
  let n := fun j i => ((cell bs j i).map cv.num).getD 0
  ⟨n 2 0, (n 0 0, n 0 1), (n 1 0, n 1 1), n 4 0⟩

def WfArc (bs : List Tree) : Prop :=
  ∃ t0 t1 t2 t3 t4 more, bs = t0 :: t1 :: t2 :: t3 :: t4 :: more ∧ 2 ≤ t0.branches.length ∧ 2 ≤ t1.branches.length ∧
    1 ≤ t2.branches.length ∧ 1 ≤ t4.branches.length

/-- what is drawn for a pad of a shape and a size -/
def outlineOf (sh : PShape) (size : K × K) : List (K × K) :=
  match sh with
  | .oval => [(-(size.2 / 2), 0), (size.2 / 2, 0)]
  | .rect => [(-(size.1 / 2), size.2 / 2), (size.1 / 2, size.2 / 2), (size.1 / 2, -(size.2 / 2)), (-(size.1 / 2), -(size.2 / 2))]
  | _ => []

/-- the name of a pad: what is given, or a number for those without a name -/
def padName (n : Nat) (name : List Char) : List Char := if name = [] then "Unnamed".toList ++ (Nat.repr n).toList else name

/-- a pad; `n` is the number of pads without a name before it -/
def padOf [DecidableEq K] (cv : Conv K) (fl : List Char → Option Nat) (n : Nat) (bs : List Tree) : Pad K :=
  let txt := fun i => (bs[i]?.map Tree.value).getD []
  let as := bs.drop 3
  let sh := padShape (txt 2)
  ⟨padType (txt 1), sh, idxOf cv "net" as, numOf cv "at" 2 as, numOf cv "roundrect_rratio" 0 as, ptOf cv "at" as, ptOf cv "size" as,
    padName n (txt 0),
    (((nodes "gr_poly" (under "primitives" as)).filterMap fun g => g.branches[0]?).getLast?.map (pointsOf cv)).getD [] ++
      outlineOf sh (ptOf cv "size" as),
    (under "layers" as).filterMap fun t => fl t.value⟩

def WfPadAttr (a : Tree) : Prop :=
  Has "size" 2 a ∧ Has "roundrect_rratio" 1 a ∧ Has "net" 1 a ∧
  (a.value = "primitives".toList → ∀ g ∈ nodes "gr_poly" a.branches, ∃ p, g.branches[0]? = some p ∧ WfPts p)

def WfPad (bs : List Tree) : Prop := 3 ≤ bs.length ∧ ∀ a ∈ bs.drop 3, WfPadAttr a

/-! ### reading -/

theorem foldR_spec {σ : Type} (f : σ → Tree → Res σ) (spec : List Tree → σ) (wf : Tree → Prop)
    (hs : ∀ as a, wf a → f (spec as) a = .ok (spec (as ++ [a]))) :
    ∀ (bs as : List Tree), (∀ b ∈ bs, wf b) → foldR f (spec as) bs = .ok (spec (as ++ bs))
  | [], as, _ => by simp [foldR]
  | b :: bs, as, h => by
    rw [foldR, hs as b (h b (by simp)), Res.bind_ok, foldR_spec f spec wf hs bs (as ++ [b]) (fun x hx => h x (by simp [hx]))]
    simp

theorem foldR_append {σ α : Type} (f : σ → α → Res σ) (as bs : List α) : ∀ s, foldR f s (as ++ bs) = (foldR f s as).bind fun s => foldR f s bs := by
  induction as with
  | nil => intro s; rfl
  | cons a as ih =>
    intro s
    rw [List.cons_append, foldR, foldR]
    cases f s a with
    | ok s' => rw [Res.bind_ok, Res.bind_ok, ih]
    | ub => rfl
    | exn => rfl

theorem nodes_append (k : String) (as bs : List Tree) : nodes k (as ++ bs) = nodes k as ++ nodes k bs := List.filter_append ..

theorem nodes_one (k : String) (a : Tree) : nodes k [a] = if a.value = k.toList then [a] else [] := by
  unfold nodes
  split <;> rename_i h <;> simp [h]

theorem under_append (k : String) (as bs : List Tree) : under k (as ++ bs) = under k as ++ under k bs := by
  simp [under, nodes_append]

theorem under_snoc (k : String) (as : List Tree) (a : Tree) :
    under k (as ++ [a]) = if a.value = k.toList then under k as ++ a.branches else under k as := by
  rw [under_append]
  unfold under
  rw [nodes_one]
  split <;> simp

theorem lastVal_snoc (k : String) (i : Nat) (as : List Tree) (a : Tree) :
    lastVal k i (as ++ [a]) = if a.value = k.toList then (a.branches[i]?.map Tree.value).or (lastVal k i as) else lastVal k i as := by
  unfold lastVal
  rw [nodes_append, nodes_one]
  split
  · cases h : a.branches[i]? <;> simp [h]
  · simp

theorem layerOf_snoc (fl : List Char → Option Nat) (k : String) (i : Nat) (as : List Tree) (a : Tree) :
    layerOf fl k i (as ++ [a]) = if a.value = k.toList then (a.branches[i]?.bind fun v => fl v.value).or (layerOf fl k i as) else layerOf fl k i as := by
  unfold layerOf
  rw [nodes_append, nodes_one]
  split
  · cases h : a.branches[i]? with
    | none => simp [h]
    | some v => cases h2 : fl v.value <;> simp [h, h2]
  · simp

theorem solidOf_snoc (k : String) (as : List Tree) (a : Tree) :
    solidOf k (as ++ [a]) = if a.value = k.toList then (solidOf k as || decide (a.branches.head?.map Tree.value = some "solid".toList)) else solidOf k as := by
  unfold solidOf
  rw [nodes_append, nodes_one]
  split <;> simp

theorem numOf_snoc (cv : Conv K) (k : String) (i : Nat) (as : List Tree) (a : Tree) :
    numOf cv k i (as ++ [a]) = if a.value = k.toList then tryNum cv (numOf cv k i as) a.branches i else numOf cv k i as := by
  unfold numOf
  rw [lastVal_snoc]
  split
  · unfold tryNum
    cases a.branches[i]? <;> simp
  · rfl

theorem idxOf_snoc (cv : Conv K) (k : String) (as : List Tree) (a : Tree) :
    idxOf cv k (as ++ [a]) = if a.value = k.toList then ((a.branches[0]?.map fun v => cv.index v.value).or (idxOf cv k as)) else idxOf cv k as := by
  unfold idxOf
  rw [lastVal_snoc]
  split
  · cases a.branches[0]? <;> simp
  · rfl

theorem ptOf_snoc (cv : Conv K) (k : String) (as : List Tree) (a : Tree) :
    ptOf cv k (as ++ [a]) = if a.value = k.toList then (tryNum cv (numOf cv k 0 as) a.branches 0, tryNum cv (numOf cv k 1 as) a.branches 1)
      else ptOf cv k as := by
  unfold ptOf
  rw [numOf_snoc, numOf_snoc]
  split <;> rfl

theorem val_some {b : List Tree} {i : Nat} {t : Tree} (h : b[i]? = some t) : val b i = .ok t.value := by
  simp [val, Res.index, h]

theorem getNum_ok (cv : Conv K) (b : List Tree) (old : K) (h : 1 ≤ b.length) : getNum cv b = .ok (tryNum cv old b 0) := by
  have h0 : b[0]? = some b[0] := List.getElem?_eq_getElem (by omega)
  simp [getNum, val_some h0, tryNum, h0]

theorem getPair_ok (cv : Conv K) (b : List Tree) (o1 o2 : K) (h : 2 ≤ b.length) :
    getPair cv b = .ok (tryNum cv o1 b 0, tryNum cv o2 b 1) := by
  have h0 : b[0]? = some b[0] := List.getElem?_eq_getElem (by omega)
  have h1 : b[1]? = some b[1] := List.getElem?_eq_getElem (by omega)
  simp [getPair, val_some h0, val_some h1, tryNum, h0, h1]

theorem getIdx_ok (cv : Conv K) (b : List Tree) (o : Option Nat) (h : 1 ≤ b.length) :
    ∃ n, getIdx cv b = .ok n ∧ (b[0]?.map fun v => cv.index v.value).or o = some n := by
  have h0 : b[0]? = some b[0] := List.getElem?_eq_getElem (by omega)
  exact ⟨cv.index b[0].value, by simp [getIdx, val_some h0], by simp [h0]⟩

theorem getLayer_ok (fl : List Char → Option Nat) (old : Option Nat) (b : List Tree) (h : 1 ≤ b.length) :
    getLayer fl old b = .ok ((b[0]?.bind fun v => fl v.value).or old) := by
  have h0 : b[0]? = some b[0] := List.getElem?_eq_getElem (by omega)
  simp [getLayer, val_some h0, h0]

/-- strings of names are different -/
theorem key_ne {a : Tree} {k l : String} (h : a.value = k.toList) (hne : k ≠ l) : a.value ≠ l.toList := by
  intro h2
  exact hne (String.toList_inj.1 (h.symm.trans h2))

theorem stroke_step (cv : Conv K) (fl : List Char → Option Nat) (as : List Tree) (a : Tree) (h : WfStroke a) :
    strokeAttr cv fl (strokeOf cv fl as) a = .ok (strokeOf cv fl (as ++ [a])) := by
  obtain ⟨h1, h2, h3, h4⟩ := h
  unfold strokeAttr strokeOf
  rw [solidOf_snoc, solidOf_snoc, layerOf_snoc, numOf_snoc]
  by_cases c1 : a.value = "width".toList
  · simp [c1, getNum_ok cv _ (numOf cv "width" 0 as) (h1 c1)]
  by_cases c2 : a.value = "type".toList
  · have h0 : a.branches[0]? = some (a.branches[0]'(h2 c2)) := List.getElem?_eq_getElem _
    simp only [c2, val_some h0, setSolid, List.head?_eq_getElem?, h0]
    rw [Option.map_some]
    generalize (a.branches[0]'(h2 c2)).value = v
    by_cases hv : v = "solid".toList
    · simp [hv]
    · have hd : decide (some v = some "solid".toList) = false := by simpa using hv
      rw [hd]
      simp only [Res.bind_ok, if_neg hv]
      simp
  by_cases c3 : a.value = "fill".toList
  · have h0 : a.branches[0]? = some (a.branches[0]'(h3 c3)) := List.getElem?_eq_getElem _
    simp only [c3, val_some h0, setSolid, List.head?_eq_getElem?, h0]
    rw [Option.map_some]
    generalize (a.branches[0]'(h3 c3)).value = v
    by_cases hv : v = "solid".toList
    · simp [hv]
    · have hd : decide (some v = some "solid".toList) = false := by simpa using hv
      rw [hd]
      simp only [Res.bind_ok, if_neg hv]
      simp
  by_cases c4 : a.value = "layer".toList
  · simp [c4, getLayer_ok fl _ _ (h4 c4)]
  simp only [if_neg c1, if_neg c2, if_neg c3, if_neg c4]

theorem extractStroke_spec (cv : Conv K) (fl : List Char → Option Nat) (as bs : List Tree) (h : ∀ b ∈ bs, WfStroke b) :
    extractStroke cv fl (strokeOf cv fl as) bs = .ok (strokeOf cv fl (as ++ bs)) :=
  foldR_spec _ _ _ (stroke_step cv fl) bs as h

theorem extractSegment_spec (cv : Conv K) (fl : List Char → Option Nat) (bs : List Tree) (h : ∀ b ∈ bs, WfSegment b) :
    extractSegment cv fl bs = .ok (segmentOf cv fl bs) := by
  refine foldR_spec (segAttr cv fl) (segmentOf cv fl) WfSegment ?_ bs [] h
  rintro as a ⟨h1, h2, h3, h4, h5⟩
  unfold segAttr segmentOf
  rw [idxOf_snoc, layerOf_snoc, numOf_snoc, ptOf_snoc, ptOf_snoc]
  by_cases c1 : a.value = "start".toList
  · simp [c1, getPair_ok cv _ (numOf cv "start" 0 as) (numOf cv "start" 1 as) (h1 c1)]
  by_cases c2 : a.value = "end".toList
  · simp [c2, getPair_ok cv _ (numOf cv "end" 0 as) (numOf cv "end" 1 as) (h2 c2)]
  by_cases c3 : a.value = "width".toList
  · simp [c3, getNum_ok cv _ (numOf cv "width" 0 as) (h3 c3)]
  by_cases c4 : a.value = "net".toList
  · obtain ⟨n, e1, e2⟩ := getIdx_ok cv a.branches (idxOf cv "net" as) (h4 c4)
    rw [e1, e2]
    simp [c4]
  by_cases c5 : a.value = "layer".toList
  · simp [c5, getLayer_ok fl _ _ (h5 c5)]
  simp only [if_neg c1, if_neg c2, if_neg c3, if_neg c4, if_neg c5]

theorem viaTypeOf_snoc (as : List Tree) (a : Tree) : viaTypeOf (as ++ [a]) =
    if a.value = "micro".toList then .micro else if a.value = "bline".toList then .blind else viaTypeOf as := by
  unfold viaTypeOf
  rw [List.filter_append]
  by_cases c1 : a.value = "micro".toList
  · simp [c1]
  by_cases c2 : a.value = "bline".toList
  · simp [c2]
  rw [if_neg c1, if_neg c2, List.filter_cons_of_neg (by simpa using ⟨c1, c2⟩), List.filter_nil, List.append_nil]

theorem extractVia_spec (cv : Conv K) (fl : List Char → Option Nat) (bs : List Tree) (h : ∀ b ∈ bs, WfVia b) :
    extractVia cv fl bs = .ok (viaOf cv fl bs) := by
  refine foldR_spec (viaAttr cv fl) (viaOf cv fl) WfVia ?_ bs [] h
  rintro as a ⟨h1, h2, h3, h4⟩
  unfold viaAttr viaOf
  rw [idxOf_snoc, layerOf_snoc, layerOf_snoc, numOf_snoc, ptOf_snoc, viaTypeOf_snoc]
  by_cases c1 : a.value = "at".toList
  · simp [c1, getPair_ok cv _ (numOf cv "at" 0 as) (numOf cv "at" 1 as) (h1 c1)]
  by_cases c2 : a.value = "size".toList
  · simp [c2, getNum_ok cv _ (numOf cv "size" 0 as) (h2 c2)]
  by_cases c3 : a.value = "net".toList
  · obtain ⟨n, e1, e2⟩ := getIdx_ok cv a.branches (idxOf cv "net" as) (h3 c3)
    rw [e1, e2]
    simp [c3]
  by_cases c4 : a.value = "layers".toList
  · have hl := h4 c4
    have h0 : a.branches[0]? = some (a.branches[0]'(by omega)) := List.getElem?_eq_getElem _
    have h1 : a.branches[1]? = some (a.branches[1]'(by omega)) := List.getElem?_eq_getElem _
    rw [h0, h1]
    simp [c4, Res.at_, h0, h1]
  by_cases c5 : a.value = "micro".toList
  · simp [c5]
  by_cases c6 : a.value = "bline".toList
  · simp [c6]
  simp only [if_neg c1, if_neg c2, if_neg c3, if_neg c4, if_neg c5, if_neg c6]

theorem extractCircle_spec (cv : Conv K) (fl : List Char → Option Nat) (bs : List Tree) (h : ∀ b ∈ bs, WfCircle b) :
    extractCircle cv fl bs = .ok (circleOf cv fl bs) := by
  refine foldR_spec (circleAttr cv fl) (circleOf cv fl) WfCircle ?_ bs [] h
  rintro as a ⟨h1, h2, h3⟩
  unfold circleAttr circleOf
  rw [ptOf_snoc, ptOf_snoc, under_snoc]
  by_cases c1 : a.value = "center".toList
  · simp [c1, getPair_ok cv _ (numOf cv "center" 0 as) (numOf cv "center" 1 as) (h1 c1)]
  by_cases c2 : a.value = "end".toList
  · simp [c2, getPair_ok cv _ (numOf cv "end" 0 as) (numOf cv "end" 1 as) (h2 c2)]
  by_cases c3 : a.value = "stroke".toList
  · simp [c3, extractStroke_spec cv fl _ _ (h3 c3)]
  simp only [if_neg c1, if_neg c2, if_neg c3]

theorem extractLine_spec (cv : Conv K) (fl : List Char → Option Nat) (bs : List Tree) (h : ∀ b ∈ bs, WfLine b) :
    extractLine cv fl bs = .ok (lineOf cv fl bs) := by
  refine foldR_spec (lineAttr cv fl) (lineOf cv fl) WfLine ?_ bs [] h
  rintro as a ⟨h1, h2, h3⟩
  unfold lineAttr lineOf
  rw [ptOf_snoc, ptOf_snoc, under_snoc]
  by_cases c1 : a.value = "start".toList
  · simp [c1, getPair_ok cv _ (numOf cv "start" 0 as) (numOf cv "start" 1 as) (h1 c1)]
  by_cases c2 : a.value = "end".toList
  · simp [c2, getPair_ok cv _ (numOf cv "end" 0 as) (numOf cv "end" 1 as) (h2 c2)]
  by_cases c3 : a.value = "stroke".toList
  · simp [c3, extractStroke_spec cv fl _ _ (h3 c3)]
  simp only [if_neg c1, if_neg c2, if_neg c3]

theorem ring_eq {α : Type} [DecidableEq α] (ps : List α) (h : 2 ≤ ps.length) : ∃ z a, ps.getLast? = some z ∧ ps.head? = some a ∧
    (if z = a then ps.dropLast else ps) = ring ps := by
  match ps, h with
  | a :: b :: ps, _ =>
    obtain ⟨z, hz⟩ : ∃ z, (b :: ps).getLast? = some z := ⟨(b :: ps).getLast (by simp), List.getLast?_eq_some_getLast (by simp)⟩
    refine ⟨z, a, by rw [List.getLast?_cons_cons]; exact hz, rfl, ?_⟩
    rw [ring, hz]
    by_cases he : z = a
    · rw [if_pos he, if_pos (by rw [he]), List.dropLast_cons_of_ne_nil (by simp)]
    · rw [if_neg he, if_neg (by simpa using he)]

theorem extractPoints_spec [DecidableEq K] (cv : Conv K) (t : Tree) (h : WfPts t) : extractPoints cv t.branches = .ok (pointsOf cv t) := by
  have hf := foldR_spec (fun (ps : List (K × K)) (s : Tree) => (getPair cv s.branches).bind fun p => .ok (ps ++ [p]))
    (fun bs => bs.map fun p => (tryNum cv 0 p.branches 0, tryNum cv 0 p.branches 1)) (fun p => 2 ≤ p.branches.length)
    (by
      intro as a ha
      rw [getPair_ok cv _ 0 0 ha]
      simp) t.branches [] h.2
  unfold extractPoints
  refine (congrArg (fun r => Res.bind r _) hf).trans ?_
  rw [Res.bind_ok]
  obtain ⟨z, a, hz, ha, he⟩ := ring_eq (t.branches.map fun p => (tryNum cv 0 p.branches 0, tryNum cv 0 p.branches 1)) (by simpa using h.1)
  simp only [List.nil_append, hz, ha]
  rw [he]
  rfl

theorem getLast_map_snoc {α β : Type} (f : α → β) (l : List α) (a : α) (d : β) : (((l ++ [a]).getLast?).map f).getD d = f a := by simp

theorem zonePts_spec [DecidableEq K] (cv : Conv K) (as bs : List Tree) (h : ∀ p ∈ nodes "pts" bs, WfPts p) :
    foldR (zonePts cv) (((nodes "pts" as).getLast?.map (pointsOf cv)).getD []) bs =
      .ok (((nodes "pts" (as ++ bs)).getLast?.map (pointsOf cv)).getD []) := by
  refine foldR_spec (zonePts cv) (fun as => ((nodes "pts" as).getLast?.map (pointsOf cv)).getD []) (fun p => p.value = "pts".toList → WfPts p)
    ?_ bs as ?_
  · intro as a ha
    unfold zonePts
    rw [nodes_append, nodes_one]
    by_cases c : a.value = "pts".toList
    · rw [if_pos c, if_pos c, extractPoints_spec cv a (ha c), getLast_map_snoc]
    · rw [if_neg c, if_neg c, List.append_nil]
  · intro b hb hv
    exact h b (by simp [nodes, hb, hv])

theorem zoneFill_spec [DecidableEq K] (cv : Conv K) (as bs : List Tree) (h : ∀ p ∈ nodes "pts" bs, WfPts p) :
    foldR (zoneFill cv) ((nodes "pts" as).map (pointsOf cv)) bs = .ok ((nodes "pts" (as ++ bs)).map (pointsOf cv)) := by
  refine foldR_spec (zoneFill cv) (fun as => (nodes "pts" as).map (pointsOf cv)) (fun p => p.value = "pts".toList → WfPts p)
    ?_ bs as ?_
  · intro as a ha
    unfold zoneFill
    rw [nodes_append, nodes_one]
    by_cases c : a.value = "pts".toList
    · rw [if_pos c, if_pos c, extractPoints_spec cv a (ha c)]
      simp
    · rw [if_neg c, if_neg c, List.append_nil]
  · intro b hb hv
    exact h b (by simp [nodes, hb, hv])

theorem extractZone_spec [DecidableEq K] (cv : Conv K) (fl : List Char → Option Nat) (bs : List Tree) (h : ∀ b ∈ bs, WfZone b) :
    extractZone cv fl bs = .ok (zoneOf cv fl bs) := by
  refine foldR_spec (zoneAttr cv fl) (zoneOf cv fl) WfZone ?_ bs [] h
  rintro as a ⟨h1, h2, h3, h4⟩
  unfold zoneAttr zoneOf
  rw [idxOf_snoc, layerOf_snoc, under_snoc, under_snoc]
  by_cases c1 : a.value = "net".toList
  · obtain ⟨n, e1, e2⟩ := getIdx_ok cv a.branches (idxOf cv "net" as) (h1 c1)
    rw [e1, e2]
    simp [c1]
  by_cases c2 : a.value = "layer".toList
  · simp [c2, getLayer_ok fl _ _ (h2 c2)]
  by_cases c3 : a.value = "polygon".toList
  · simp [c3, zonePts_spec cv _ _ (h3 c3)]
  by_cases c4 : a.value = "filled_polygon".toList
  · simp [c4, zoneFill_spec cv _ _ (h4 c4)]
  simp only [if_neg c1, if_neg c2, if_neg c3, if_neg c4]

theorem extractPoly_spec [DecidableEq K] (cv : Conv K) (fl : List Char → Option Nat) (bs : List Tree) (h : ∀ b ∈ bs, WfPoly b) :
    extractPoly cv fl bs = .ok (polyOf cv fl bs) := by
  refine foldR_spec (polyAttr cv fl) (polyOf cv fl) WfPoly ?_ bs [] h
  rintro as a ⟨h1, h2⟩
  unfold polyAttr polyOf
  rw [under_snoc, nodes_append, nodes_one]
  by_cases c1 : a.value = "pts".toList
  · simp [c1, extractPoints_spec cv a (h1 c1)]
  by_cases c2 : a.value = "stroke".toList
  · simp [c2, extractStroke_spec cv fl _ _ (h2 c2)]
  simp only [if_neg c1, if_neg c2, List.append_nil]

theorem extractArc_spec (cv : Conv K) (bs : List Tree) (h : WfArc bs) : extractArc cv bs = .ok (arcOf cv bs) := by
  obtain ⟨t0, t1, t2, t3, t4, more, rfl, h0, h1, h2, h4⟩ := h
  unfold extractArc arcOf
  simp only [Res.at_, List.getElem?_cons_zero, List.getElem?_cons_succ, Res.bind_ok, getPair_ok cv _ 0 0 h0, getPair_ok cv _ 0 0 h1,
    getNum_ok cv _ 0 h2, getNum_ok cv _ 0 h4, cell, Option.bind_some, tryNum, Option.map_map]
  rfl

theorem padPrim_spec [DecidableEq K] (cv : Conv K) (as bs : List Tree)
    (h : ∀ g ∈ nodes "gr_poly" bs, ∃ p, g.branches[0]? = some p ∧ WfPts p) :
    foldR (padPrim cv) ((((nodes "gr_poly" as).filterMap fun g => g.branches[0]?).getLast?.map (pointsOf cv)).getD []) bs =
      .ok ((((nodes "gr_poly" (as ++ bs)).filterMap fun g => g.branches[0]?).getLast?.map (pointsOf cv)).getD []) := by
  refine foldR_spec (padPrim cv) (fun as => (((nodes "gr_poly" as).filterMap fun g => g.branches[0]?).getLast?.map (pointsOf cv)).getD [])
    (fun g => g.value = "gr_poly".toList → ∃ p, g.branches[0]? = some p ∧ WfPts p) ?_ bs as ?_
  · intro as a ha
    unfold padPrim
    rw [nodes_append, nodes_one]
    by_cases c : a.value = "gr_poly".toList
    · obtain ⟨p, hp, hw⟩ := ha c
      rw [if_pos c, if_pos c, List.filterMap_append]
      have : [a].filterMap (fun g : Tree => g.branches[0]?) = [p] := by simp [hp]
      rw [this, getLast_map_snoc, Res.index, hp]
      exact extractPoints_spec cv p hw
    · rw [if_neg c, if_neg c, List.append_nil]
  · intro b hb hv
    exact h b (by simp [nodes, hb, hv])

theorem extractPad_spec [DecidableEq K] (cv : Conv K) (fl : List Char → Option Nat) (n : Nat) (bs : List Tree) (h : WfPad bs) :
    extractPad cv fl n bs = .ok (padOf cv fl n bs, if (bs[0]?.map Tree.value) = some [] then n + 1 else n) := by
  obtain ⟨hl, hw⟩ := h
  match bs, hl with
  | t0 :: t1 :: t2 :: as, _ =>
    have hw : ∀ a ∈ as, WfPadAttr a := hw
    have key : ∀ (ty : PType) (sh : PShape) (nm : List Char), foldR (padAttr cv fl) ⟨ty, sh, none, 0, 0, (0, 0), (0, 0), nm, [], []⟩ as =
        .ok ⟨ty, sh, idxOf cv "net" as, numOf cv "at" 2 as, numOf cv "roundrect_rratio" 0 as, ptOf cv "at" as, ptOf cv "size" as,
          nm, (((nodes "gr_poly" (under "primitives" as)).filterMap fun g => g.branches[0]?).getLast?.map (pointsOf cv)).getD [],
          (under "layers" as).filterMap fun t => fl t.value⟩ := by
      intro ty sh nm
      refine foldR_spec (padAttr cv fl) (fun as => ⟨ty, sh, idxOf cv "net" as, numOf cv "at" 2 as, numOf cv "roundrect_rratio" 0 as,
          ptOf cv "at" as, ptOf cv "size" as,
          nm, (((nodes "gr_poly" (under "primitives" as)).filterMap fun g => g.branches[0]?).getLast?.map (pointsOf cv)).getD [],
          (under "layers" as).filterMap fun t => fl t.value⟩) WfPadAttr ?_ as [] hw
      rintro as a ⟨h1, h2, h3, h4⟩
      unfold padAttr
      rw [idxOf_snoc, numOf_snoc, numOf_snoc, ptOf_snoc, ptOf_snoc, under_snoc, under_snoc]
      by_cases c1 : a.value = "at".toList
      · simp [c1, ptOf]
      by_cases c2 : a.value = "size".toList
      · simp [c2, getPair_ok cv _ (numOf cv "size" 0 as) (numOf cv "size" 1 as) (h1 c2)]
      by_cases c3 : a.value = "layers".toList
      · simp [c3]
      by_cases c4 : a.value = "roundrect_rratio".toList
      · simp [c4, getNum_ok cv _ (numOf cv "roundrect_rratio" 0 as) (h2 c4)]
      by_cases c5 : a.value = "net".toList
      · obtain ⟨n, e1, e2⟩ := getIdx_ok cv a.branches (idxOf cv "net" as) (h3 c5)
        rw [e1, e2]
        simp [c5]
      by_cases c6 : a.value = "primitives".toList
      · rw [padPrim_spec cv _ _ (h4 c6)]
        simp [c6]
      simp only [if_neg c1, if_neg c2, if_neg c3, if_neg c4, if_neg c5, if_neg c6]
    have d3 : (t0 :: t1 :: t2 :: as).drop 3 = as := rfl
    have e0 : val (t0 :: t1 :: t2 :: as) 0 = .ok t0.value := rfl
    have e1 : val (t0 :: t1 :: t2 :: as) 1 = .ok t1.value := rfl
    have e2 : val (t0 :: t1 :: t2 :: as) 2 = .ok t2.value := rfl
    unfold extractPad
    rw [e0, e1, e2]
    simp only [Res.bind_ok, d3, key]
    congr 1
    refine Prod.ext ?_ ?_
    · unfold padOf padOutline outlineOf padName
      simp only [d3, List.getElem?_cons_zero, List.getElem?_cons_succ, Option.map_some, Option.getD_some]
      have hd : ∀ x : K, x / -2 = -(x / 2) := fun x => div_neg x
      have hi : ∀ m : List Char × Nat, ∀ m2 : List Char × Nat, (if t0.value = [] then m else m2).1 = if t0.value = [] then m.1 else m2.1 := by
        intro m m2; split <;> rfl
      rw [hi]
      cases padShape t2.value <;> simp only [hd, List.append_nil]
    · simp only [List.getElem?_cons_zero, Option.map_some, Option.some.injEq, apply_ite Prod.snd]

end Ecad.KiCad
