import Verif.KiCad.ImportProps
/-!
C133: a board with two copper layers, two nets, a segment and a via, as a text.
-/
namespace Ecad.KiCad

def sn (s : String) (l : List Sexp) : Sexp := .node s.toList l
def sb (s : String) : Sexp := .bare s.toList
def sq (s : String) : Sexp := .quoted s.toList

/-- what the board says -/
def pPcb : Pcb where
  layers := [⟨"0".toList, 0, "F.Cu".toList, "signal".toList, []⟩, ⟨"31".toList, 31, "B.Cu".toList, "signal".toList, []⟩,
    ⟨"44".toList, 44, "Edge.Cuts".toList, "user".toList, []⟩]
  stack := [⟨"F.Cu".toList, some "copper".toList, some "3".toList, none, []⟩,
    ⟨"B.Cu".toList, some "core".toList, some "4".toList, some "FR4".toList, []⟩]
  nets := [⟨"0".toList, 0, []⟩, ⟨"1".toList, 1, "GND".toList⟩]
  objs := [nd "segment" [nd "start" [lf "1", lf "1"], nd "end" [lf "2", lf "7"], nd "width" [lf "3"], nd "layer" [lf "B.Cu"], nd "net" [lf "1"]],
    nd "via" [nd "at" [lf "4", lf "4"], nd "size" [lf "6"], nd "layers" [lf "F.Cu", lf "B.Cu"], nd "net" [lf "1"]]]

/-- how it is written -/
def pParts : List Sexp :=
  [sn "version" [], sn "layers" [sn "0" [sq "F.Cu", sb "signal"], sn "31" [sq "B.Cu", sb "signal"], sn "44" [sq "Edge.Cuts", sb "user"]],
    sn "setup" [sn "stackup" [sn "layer" [sq "F.Cu", sn "type" [sq "copper"], sn "thickness" [sb "3"]],
      sn "layer" [sq "B.Cu", sn "type" [sq "core"], sn "thickness" [sb "4"], sn "material" [sq "FR4"]]]],
    sn "net" [sb "0", sq ""], sn "net" [sb "1", sq "GND"],
    sn "segment" [sn "start" [sb "1", sb "1"], sn "end" [sb "2", sb "7"], sn "width" [sb "3"], sn "layer" [sq "B.Cu"], sn "net" [sb "1"]],
    sn "via" [sn "at" [sb "4", sb "4"], sn "size" [sb "6"], sn "layers" [sq "F.Cu", sq "B.Cu"], sn "net" [sb "1"]]]

example : pPcb.Ok oConv where
  ids := by decide
  names := by decide
  stack := by decide
  more := by decide
  netIds := by decide
  nets := by decide
  few := by decide
  objs := by
    have h : ∀ t ∈ pPcb.objs, NoArc t ∧ Has "net" 2 t ∧ t.value ≠ "footprint".toList ∧ t.value ≠ "net".toList ∧
        ∀ k ∈ ["layers", "stackup", "setup"], t.value ≠ k.toList := by decide +kernel
    intro t ht
    exact ⟨⟨(h t ht).1.wf, (h t ht).2.1, fun hf => absurd hf (h t ht).2.2.1, (h t ht).2.2.2.2⟩, (h t ht).2.2.2.1⟩

example : pPcb.IsTree (Sexp.node "kicad_pcb".toList pParts).tree := by
  refine ⟨"kicad_pcb".toList, [nd "version" []], [], [], [], [], ?_, by simp, rfl⟩
  intro x hx
  simp only [List.append_nil, List.mem_singleton] at hx
  subst hx
  unfold Quiet
  decide

/-- the text, after a comment and before an empty line -/
def pText : List Char := "board\n(kicad_pcb".toList ++ (texts pParts ++ ")\n".toList)

instance (b : List Char) : Decidable (Word b) := by unfold Word; infer_instance

theorem raw_plain {q : List Char} (h1 : '"' ∉ q) (h2 : '\\' ∉ q) : Raw q := by
  refine ⟨fun u v h => absurd (by rw [h]; simp) h1, ?_⟩
  intro h
  exact h2 (List.mem_of_getLast? h)

mutual
/-- names and atoms can be written: a test -/
def Sexp.okB : Sexp → Bool
  | .node name items => decide (Word name) && !name.isEmpty && oksB items
  | .bare t => decide (Word t) && (match t with | [] => false | c :: _ => c != '(' && c != '"')
  | .quoted t => !t.contains '"' && !t.contains '\\'

def oksB : List Sexp → Bool
  | [] => true
  | t :: ts => t.okB && oksB ts
end

mutual
theorem Sexp.ok_of_test (t : Sexp) (h : t.okB = true) : t.Ok := by
  cases t with
  | node name items =>
    simp only [Sexp.okB, Bool.and_eq_true, decide_eq_true_eq, Bool.not_eq_true', List.isEmpty_eq_false_iff] at h
    exact ⟨h.1.1, h.1.2, oks_of_test items h.2⟩
  | bare t =>
    simp only [Sexp.okB, Bool.and_eq_true, decide_eq_true_eq] at h
    refine ⟨h.1, ?_⟩
    cases t with
    | nil => simp at h
    | cons c r =>
      simp only [Bool.and_eq_true, bne_iff_ne, ne_eq] at h
      exact ⟨c, r, rfl, h.2.1, h.2.2⟩
  | quoted t =>
    simp only [Sexp.okB, Bool.and_eq_true, Bool.not_eq_true', List.contains_eq_mem, decide_eq_false_iff_not] at h
    exact raw_plain h.1 h.2

theorem oks_of_test (ts : List Sexp) (h : oksB ts = true) : Oks ts := by
  cases ts with
  | nil => trivial
  | cons t ts =>
    simp only [oksB, Bool.and_eq_true] at h
    exact ⟨Sexp.ok_of_test t h.1, oks_of_test ts h.2⟩
end

example : Writes "kicad_pcb".toList pParts pText := by
  refine ⟨"board\n".toList, [], [], texts pParts ++ ')' :: ['\n'], ['\n'], by decide, by intro c hc; simp at hc, by intro c hc; simp at hc,
    by decide, by decide, texts_sep _ _, texts_items pParts (oks_of_test _ (by decide +kernel)) ['\n'], rfl⟩

/-- what is made of it: two layers, of which the second is stacked below the first, two nets, and nothing else -/
def pImport : Option (Import ℚ) :=
  match (createDatabase oConv id 'x' id id 1000 2 [] 7 "board" (some pText)).2 with
  | some (.ok im) => im
  | _ => none

example : (pImport.map Import.layers) =
    some [⟨"F.Cu", true, 0, 3, "copper", "silicon", 0⟩, ⟨"B.Cu", false, -3, 4, "FR4", "FR4", 1⟩] := by
  decide +kernel

example : (pImport.map fun im => (im.nets.nets.map fun e => e.2.name, im.primitives)) = some (["", "GND"], 0) := by
  decide +kernel

end Ecad.KiCad
