import Verif.Design.CacheProps
import Verif.Thermal.LayoutPrismProps
/-!
C148: what the cache of layer cut models does to the heat of a layout (on top of C143).
-/
namespace Ecad.LayoutPrism
open Ecad.Thermal Ecad.GridT Ecad.PrismT Ecad.CutEx Finset
open Ecad.Cache2 (Gens Call SameCut after extractThermal c148_forced_refuted)

variable {F : Type} [DecidableEq F]

/-- **C148 is false of the code**, in watts: a prism model is forced for a layout `I'` after a layer cut model or forced prism model was extracted when
the layout was `I`, with the same cut settings.  Whatever loss powers and currents were changed in between, in its steady state the model gives off the
power of `I`; it does not give off that of `I'` unless the two are equal. -/
theorem c148_power_refuted {E : Env} {I I' : Input} {b : CutEx.Shape} {fluid : List Int} (R : Ready E I b fluid) {ratio : ℚ} {fuel : Nat} {lc : CutEx.Model}
    {cut : Geom.Cut} (hx : CutEx.extract E ratio fuel I = .ok (lc, some (.ok cut))) (G : Gens Input F (CutEx.Model × Geom.Cut) (PModel ℚ))
    {h : List (Input × Call F)} {e : Call F} {base : Extract.ThermalS F} {ms : Extract.MeshS F} {mg : Extract.MergeS} {cs cs' : Extract.CutS F}
    (he : e = .cut cs' ∨ ∃ b' m' g', e = .thermal (.prism b' m' g' cs') ∧ b'.forceRebuild = true) (hc : SameCut cs' cs)
    (hk : ∀ k, (after G h).cutM = some k → ¬ SameCut k.1 cs') (hf : base.forceRebuild = true) (hG : G.cut I cs' = (lc, cut))
    {area : Polygon → ℚ} {v : PrismT.View} {mesh : Mesh} {L : WireLib}
    (hM : Made (readCut lc cut fluid area) v (G.prism I' (.prism base ms mg cs) (lc, cut)) mesh lc.wires L) {w : CompIn → ℚ}
    (hw : ∀ c ∈ sources I, ∀ e ∈ c.power, e.2 = w c) {r : Nat → ℚ}
    (hr : ∀ k T, 0 ≤ r k ∧ (G.prism I' (.prism base ms mg cs) (lc, cut)).resist k T = r k) {minR : ℚ} (hm : 0 < minR) (refT : ℚ) :
    ∃ m, (extractThermal G I' (after G (h ++ [(I, e)])) (.prism base ms mg cs)).2.map Extract.Model.content = some m ∧
      ∀ iniT : List ℚ, iniT.length = m.total → ∃ net, m.build minR iniT = .ok (some net) ∧
        ∀ x, Solves net refT x → PrismBal.given m refT x = power E I L w r ∧
          ∀ w', power E I' L w' r ≠ power E I L w r → PrismBal.given m refT x ≠ power E I' L w' r := by
  have h1 := (c148_forced_refuted G h I I' e base ms mg cs cs' he hc hk hf).1
  rw [hG] at h1
  refine ⟨_, h1, fun iniT hl => ?_⟩
  obtain ⟨net, n1, n2⟩ := c143_constant R hx hM hw hr hm refT iniT hl
  refine ⟨net, n1, fun x hs => ⟨n2 x hs, fun w' hne => ?_⟩⟩
  rw [n2 x hs]
  exact fun h => hne h.symm

/-! ## example -/

/-- the layout of `exIn` after the loss power of its die was set to 5 W -/
def exHot : Input := { exIn with comps := [⟨⟨0, false, 4, 0⟩, some (sq 0 0 10), some 7, none, [(300, 5)], 0⟩] }

/-- The hypotheses are met: after the change the layout has 45 W, but the model forced for it gives off 44 W. -/
example : ∃ (G : Gens Input Int (CutEx.Model × Geom.Cut) (PModel ℚ)) (m : PModel ℚ),
    (extractThermal G exHot (after G [(exIn, .thermal (Extract.samplePrism true 1))]) (Extract.samplePrism true 1)).2.map Extract.Model.content = some m ∧
    power exEnv exHot exWires (fun _ => 5) (fun _ => 1) = 45 ∧
    ∀ iniT : List ℚ, iniT.length = m.total → ∃ net, m.build (1 / 100) iniT = .ok (some net) ∧ ∀ x, Solves net 300 x → PrismBal.given m 300 x = 44 := by
  obtain ⟨m, hM, hw, hr, hp⟩ := ex_model
  let G : Gens Input Int (CutEx.Model × Geom.Cut) (PModel ℚ) := ⟨fun _ _ => (exLc, exLay), fun _ _ => none, fun _ _ _ => m⟩
  obtain ⟨m', h1, h2⟩ := c148_power_refuted (I' := exHot) ex_ready ex_extract G (h := []) (e := .thermal (Extract.samplePrism true 1))
    (base := Extract.sampleBase true) (ms := ⟨20, 0, 100, 0, 1, false, false, false⟩) (mg := Extract.sampleMerge) (cs := ⟨true, 6, 2, false, []⟩)
    (cs' := ⟨true, 6, 2, false, []⟩) (.inr ⟨_, _, _, rfl, rfl⟩) rfl (fun k hk => by simp [after] at hk) rfl rfl hM hw hr (minR := 1 / 100) (by norm_num) 300
  refine ⟨G, m', h1, ?_, fun iniT hl => ?_⟩
  · decide +kernel
  · obtain ⟨net, n1, n2⟩ := h2 iniT hl
    exact ⟨net, n1, fun x hx => by rw [(n2 x hx).1, hp]⟩

end Ecad.LayoutPrism
