/-
Memory experiments on generated layouts.
-/
import Verif.Lemmas.MemoryGrid
import Verif.Lemmas.MemoryRun
import Verif.Lemmas.RoundGrid
import Verif.Lemmas.Coords

namespace SurfaceSim
open Spec NoiseModel Blocks Experiments LayoutLib

variable {cfg : Detectors.Config} {nm : NoiseModel} {l : Layout} {L : List (String × Site × Kind)}
  {dirs : List (Site × String)}

/-- The experiment (without and with gauge detectors) runs, measures in the stated order and has the stated values. -/
structure MemoryGood (cfg : Detectors.Config) (nm : NoiseModel) (l : Layout) (label : String) (n : Nat)
    (dataInit : Dict String Int) (rotBasis reset : Bool) (ancDetectors : Option (List String))
    (e : Bool → PyM (Sim cfg) Circuit) : Prop where
  values : FixedValues cfg l label n dataInit rotBasis reset ancDetectors (e false)
  gauge : FixedButGauge cfg l label n dataInit rotBasis reset ancDetectors (e true)
  order : ∀ g, RecordOrder cfg nm l n (e g)
  pairs : ∀ g s, ∃ c s', e g s = (.ok c, s') ∧ PairsOk c

theorem memory_grid (hg : OnGrid l L dirs) (hr : CanRun nm l) (hnum : NumCoords l) {label : String}
    {lx lz : List String} (h1 : l.logQubits = [label]) (h2 : l.logX = [(label, lx)]) (h3 : l.logZ = [(label, lz)])
    (hc : CodeGrid l L lx lz) {isX : String → String → Bool} {rot : String → Bool} (ht : Typed l L isX rot)
    {R : List String} (rb : Bool) (hR : ∀ d ∈ R, d ∈ dataOf L)
    (hty : ∀ x ∈ stabsOf L rb, ∀ d ∈ l.getNeighbors [x] none, isX x d = decide (d ∈ R))
    (hlR : ∀ d ∈ (if rb then lx else lz), decide (d ∈ R) = (if rb then !rot d else rot d))
    {dataInit : Dict String Int} {ancDetectors : Option (List String)}
    (hargs : MemoryArgs cfg nm l dataInit ancDetectors) {fam : Family cfg} {gi iter gm : Gen} {reset : Bool}
    (hfi : fam.init l dataInit rb = activateAndSum l gi)
    (hfr : ∀ sel, fam.round l reset sel = qecRound iter l reset sel)
    (hfm : ∀ sel, fam.meas l rb reset sel = (do
      let sel ← PyM.ofExcept (checkAncDetectors l sel)
      let circuit ← onModel (sumGen gm)
      finishMeas l rb reset sel circuit))
    (hi : InitEff nm (dataOf L) (ancOf L) R dataInit (sumGen gi))
    (hb : RoundMeasures nm l (sumGen iter) isX reset)
    (hM : MeasEff nm (dataOf L) R (sumGen gm)) (o : SetOrder) (n : Nat) :
    MemoryGood cfg nm l label n dataInit rb reset ancDetectors
      (memory fam o nm l n dataInit rb reset ancDetectors) := by
  have hlog := logicalSupport_of h1 h2 h3 rb
  have hsub : ∀ d ∈ (if rb then lx else lz), d ∈ dataOf L := by
    cases rb
    · exact hc.subZ
    · exact hc.subX
  have hm := memCode_grid hg hr hnum hlog hsub hR hty
  have heff := roundEff_grid hg hb ht hc rb hlR
  obtain ⟨ha1, ha2⟩ := hargs.anc _ hg.getQubits_anc
  have key := memory_values hm hargs.config ha1 (hargs.data _ hg.getQubits_data) hfi hfr hfm hi heff hM o ancDetectors
    ha2 n
  have keyG := memory_values_any hm hargs.config ha1 (hargs.data _ hg.getQubits_data) hfi hfr hfm hi heff hM o ancDetectors
    ha2
  have hst : l.getQubits [("role", .str "anc"), ("stab_type", .str (if rb then "x_type" else "z_type"))] =
      .ok (stabsOf L rb) := by
    have := stabQubits_grid hg rb
    unfold stabQubits stabType at this
    cases rb <;> exact this
  have hlo : (if rb then l.logX else l.logZ).get? label = some (if rb then lx else lz) := by
    cases rb
    · simp [h3, Dict.get?]
    · simp [h2, Dict.get?]
  refine ⟨?_, ?_, fun g => ?_, fun g s => ?_⟩
  · refine ⟨ancOf L, stabsOf L rb, if rb then lx else lz, hg.getQubits_anc, hst, hlo, fun s => ?_⟩
    obtain ⟨c, s', e1, -, -, -, e2⟩ := key s
    exact ⟨c, s', e1, e2⟩
  · refine ⟨ancOf L, stabsOf L rb, if rb then lx else lz, hg.getQubits_anc, hst, hlo, fun s => ?_⟩
    obtain ⟨c, s', e1, -, -, -, e2⟩ := keyG true n s
    refine ⟨c, s', e1, fun ζ ρ => ?_⟩
    obtain ⟨g, e3, e4⟩ := e2 ζ ρ
    refine ⟨?_, e4⟩
    rw [e3, memoryDetectors_eq]
    exact roundDetsWith_fixed _ _ _ _ _ _ _ _ _ _
  · refine ⟨dataOf L, ancOf L, hg.getQubits_data, hg.getQubits_anc, fun s => ?_⟩
    obtain ⟨c, s', e1, -, -, e2, -⟩ := keyG g n s
    exact ⟨c, s', e1, e2⟩
  · obtain ⟨c, s', e1, e2, -⟩ := keyG g n s
    exact ⟨c, s', e1, e2⟩

theorem css_logR (hc : CodeGrid l L lx lz) (rb : Bool) :
    ∀ d ∈ (if rb then lx else lz), decide (d ∈ (if rb then dataOf L else [])) = (if rb then !false else false) := by
  cases rb
  · simp
  · simpa using hc.subX

theorem css_R (rb : Bool) : ∀ d ∈ (if rb then dataOf L else []), d ∈ dataOf L := by
  cases rb <;> simp

variable {a : Args} {dx dz : Int} {dataInit : Dict String Int} {ancDetectors : Option (List String)}

theorem IsRot.memory_css (h : IsRot a dx dz l) (hnum : NumCoords l) (hdx : 1 ≤ dx) (hdz : 2 ≤ dz) (hr : CanRun nm l)
    (hargs : MemoryArgs cfg nm l dataInit ancDetectors) (o o' : SetOrder) (rb reset : Bool) (n : Nat) :
    MemoryGood cfg nm l a.label n dataInit rb reset ancDetectors
      (memory (rotCss cfg o nm) o' nm l n dataInit rb reset ancDetectors) :=
  have hc := h.codeGrid hdx (by omega)
  memory_grid h.grid hr hnum h.log h.logX h.logZ hc (typed_css h.grid) rb (css_R rb) (css_type h.grid rb)
    (css_logR hc rb) hargs rfl (fun _ => rfl) (fun _ => rfl) (initEff_css hr h.grid o hargs.init rb)
    (h.css hdz hr o reset) (measEff_css hr h.grid rb) o' n

theorem IsRot.memory_cssPipe (h : IsRot a dx dz l) (hnum : NumCoords l) (hdx : 1 ≤ dx) (hdz : 1 ≤ dz) (hr : CanRun nm l)
    (hargs : MemoryArgs cfg nm l dataInit ancDetectors) (o o' : SetOrder) (rb reset : Bool) (n : Nat) :
    MemoryGood cfg nm l a.label n dataInit rb reset ancDetectors
      (memory (rotCssPipelined cfg o nm) o' nm l n dataInit rb reset ancDetectors) :=
  have hc := h.codeGrid hdx hdz
  memory_grid h.grid hr hnum h.log h.logX h.logZ hc (typed_css h.grid) rb (css_R rb) (css_type h.grid rb)
    (css_logR hc rb) hargs rfl (fun _ => rfl) (fun _ => rfl) (initEff_css hr h.grid o hargs.init rb)
    (h.cssPipe hr o reset) (measEff_css hr h.grid rb) o' n

theorem IsUnrot.memory_css (h : IsUnrot a dx dz l) (hnum : NumCoords l) (hdx : 1 ≤ dx) (hdz : 2 ≤ dz) (hr : CanRun nm l)
    (hargs : MemoryArgs cfg nm l dataInit ancDetectors) (o o' : SetOrder) (rb reset : Bool) (n : Nat) :
    MemoryGood cfg nm l a.label n dataInit rb reset ancDetectors
      (memory (unrotCss cfg o nm) o' nm l n dataInit rb reset ancDetectors) :=
  have hc := h.codeGrid hdx (by omega)
  memory_grid h.grid hr hnum h.log h.logX h.logZ hc (typed_css h.grid) rb (css_R rb) (css_type h.grid rb)
    (css_logR hc rb) hargs rfl (fun _ => rfl) (fun _ => rfl) (initEff_css hr h.grid o hargs.init rb)
    (h.css hdz hr o reset) (measEff_css hr h.grid rb) o' n

theorem IsRot.xzzx_logR (h : IsRot a dx dz l) (hdx : 2 ≤ dx) (hdz : 2 ≤ dz) (rb : Bool) :
    ∀ d ∈ (if rb then logXList a dx dz else logZList a dz), decide (d ∈ xzzxR l (rotEntries a dx dz) rb) =
      (if rb then !(xzzxRotated l (zOf (rotEntries a dx dz)) d) else xzzxRotated l (zOf (rotEntries a dx dz)) d) := by
  have hc := h.codeGrid (by omega) (by omega)
  intro d hd
  have hdata : d ∈ dataOf (rotEntries a dx dz) := by
    cases rb
    · exact hc.subZ d hd
    · exact hc.subX d hd
  have := h.mem_xzzxR hdx hdz rb hdata
  cases rb
  · simp only [Bool.false_eq_true, if_false]
    rw [Bool.eq_iff_iff, decide_eq_true_eq, this]; simp
  · simp only [if_true]
    rw [Bool.eq_iff_iff, decide_eq_true_eq, this]; simp

theorem logMeasXzzx_eq (hcode : l.code = "rotated_surface_code") (o : SetOrder) (rb reset : Bool)
    (sel : Option (List String)) : logMeasXzzx (cfg := cfg) o nm l rb reset sel = (do
      let sel ← PyM.ofExcept (checkAncDetectors l sel)
      let circuit ← onModel (sumGen (logMeasXzzxIter o nm l rb))
      finishMeas l rb reset sel circuit) := by
  unfold logMeasXzzx
  simp [hcode]

theorem IsRot.memory_xzzxPipe (h : IsRot a dx dz l) (hnum : NumCoords l) (hdx : 2 ≤ dx) (hdz : 2 ≤ dz) (hr : CanRun nm l)
    (hargs : MemoryArgs cfg nm l dataInit ancDetectors) (o o' : SetOrder) (rb reset : Bool) (n : Nat) :
    MemoryGood cfg nm l a.label n dataInit rb reset ancDetectors
      (memory (xzzxPipelined cfg o nm) o' nm l n dataInit rb reset ancDetectors) :=
  have hc := h.codeGrid (by omega) (by omega)
  have hR : ∀ q ∈ xzzxR l (rotEntries a dx dz) rb, q ∈ dataOf (rotEntries a dx dz) := fun _ hq => xzzxR_data h.grid hq
  memory_grid h.grid hr hnum h.log h.logX h.logZ hc (h.typed_xzzx hdx hdz) rb hR (h.xzzx_type hdx hdz rb)
    (h.xzzx_logR hdx hdz rb) hargs rfl (fun _ => rfl) (fun sel => logMeasXzzx_eq h.code o rb reset sel)
    (initEff_xzzx hr h.grid o hargs.init h.code rb hR)
    (h.xzzxPipe hdx hdz hr o reset) (measEff_xzzx hr h.grid o rb hR) o' n

end SurfaceSim
