/-
Experiments with repeated transversal gates have fixed detectors and observables (C52).
-/
import Verif.Lemmas.GateBlocks
import Verif.Props.TransS
import Verif.Props.TransSRot
import Verif.Props.TransH
import Verif.Props.Memory
import Verif.Props.Hilbert

namespace SurfaceSim
open Spec NoiseModel Blocks Experiments LayoutLib

variable {cfg : Detectors.Config} {nm : NoiseModel} {l : Layout} {a : Args} {dx dz : Int} {dataInit : Dict String Int}
  {ancDetectors : Option (List String)} {n : Nat}

theorem repeatedS_fun (fam : Family cfg) (o : SetOrder) (hn : n % 2 = 0) (m : Nat) (rb reset : Bool) :
    repeatedS fam o nm l n m dataInit rb reset ancDetectors =
      gateExp fam o nm l (transS o nm l) n m dataInit rb rb reset ancDetectors :=
  funext fun gauge => repeatedS_eq fam o nm l hn m dataInit rb reset ancDetectors gauge

theorem repeatedH_fun (fam : Family cfg) (o : SetOrder) (n m : Nat) (rb reset : Bool) :
    repeatedH fam o nm l n m dataInit rb reset ancDetectors =
      gateExp fam o nm l (transH o nm l) n m dataInit rb (if n % 2 = 0 then rb else !rb) reset ancDetectors :=
  funext fun gauge => repeatedH_eq fam o nm l n m dataInit rb reset ancDetectors gauge

theorem Spec.FixedGateValues.deterministic {k : Nat} {rb rb' : Bool} {support : List String}
    {e : Bool → PyM (Sim cfg) Circuit}
    (h : FixedGateValues cfg nm l k dataInit rb rb' ancDetectors support e) : AlwaysDeterministic cfg (e false) := by
  intro s
  obtain ⟨data, anc, stabs, stabs', -, -, -, -, h⟩ := h
  obtain ⟨c, s', e1, hp, -, hv⟩ := h false s
  refine ⟨c, s', e1, (Props.C51_deterministic hp.2).2 fun ζ ρ ζ' ρ' => ?_⟩
  have v1 := hv ζ ρ
  have v2 := hv ζ' ρ'
  simp only [Bool.false_eq_true, if_false] at v1 v2
  rw [v1.1, v1.2, v2.1, v2.2]
  exact ⟨rfl, rfl⟩

end SurfaceSim

namespace SurfaceSim.Props
open Spec NoiseModel Blocks Experiments LayoutLib LogGates

variable {cfg : Detectors.Config} {l0 l l' l'' : Layout} {a : Args} {dx dz : Int} {q : String} {dataInit : Dict String Int}
  {ancDetectors : Option (List String)} {n : Nat}

/-- The data qubits that are swapped with the given ones by the logical H. -/
def swapped (l : Layout) (label : String) (qs : List String) : List String :=
  qs.map fun q => (partnerAt l label "swap" q).getD q

/-- **C52** Experiments `repeated_s_experiment` of unrot_surface_code_css.py: whatever the (even) number of gates, the
number of rounds per gate and the random outcomes, all detectors and the observable have fixed values; those after the
first round are zero. -/
theorem C52_unrot_s (h : unrotSurfaceCodeRectangle dx dz a = .ok l0) (hw : WithParams l0 l)
    (e : unrotSetTransS q l = (.ok (), l')) (hk : KeptGate ("trans-s_" ++ a.label) l' l'') (h2 : 2 ≤ dx) (nm : NoiseModel)
    (hr : CanRun nm l'') (hargs : MemoryArgs cfg nm l'' dataInit ancDetectors) (hargs' : GateArgs cfg [l''] dataInit)
    (o o' : SetOrder) (rotBasis reset : Bool) (hn : n % 2 = 0) (m : Nat) :
    ∃ log, (if rotBasis then l''.logX else l''.logZ).get? a.label = some log ∧
      FixedGateValues cfg nm l'' (n * m) dataInit rotBasis rotBasis ancDetectors log
        (repeatedS (unrotCss cfg o nm) o' nm l'' n m dataInit rotBasis reset ancDetectors) := by
  obtain ⟨hu, hd1, p, e1, e2, P, G, sw, hc1, hc2, hε, hus, hst⟩ := trans_s_tables h hw e hk
  have hs : WithParams l l' := (C40_only_stores h hw e).1
  have hnum := (unrot_numCoords h).params (WithParams.trans hw (WithParams.trans hs hk.1))
  have hc := hu.codeGrid hd1 hd1
  obtain ⟨Z, hgb⟩ := hst.gateBlock hu.grid hr o' (Or.inr hu.code) (firstLogical_of hu.log)
    (C40_maps_logicals h hw e hk nm hr o').1 (C40_maps_logicals h hw e hk nm hr o').2
  obtain ⟨D, d1, d2, d3, d4⟩ := transS_iff (cfg := cfg) (nm := nm) hu.grid o' (firstLogical_of hu.log) hst.stored
  refine ⟨if rotBasis then logXList a dx (2 * dx - 1) else logZList a dx, ?_, ?_⟩
  · cases rotBasis
    · simp [hu.logZ, Dict.get?]
    · simp [hu.logX, Dict.get?]
  · rw [repeatedS_fun _ _ hn]
    exact gateExp_grid hu.grid hr hnum hu.log hu.logX hu.logZ hc rotBasis rotBasis hargs hargs' rfl (fun _ => rfl)
      (fun _ => rfl) (initEff_css hr hu.grid o hargs.init rotBasis) (hu.css h2 hr o reset) (measEff_css hr hu.grid rotBasis)
      hgb d1 d2 d3 d4 o' n m (Or.inl ⟨hn, rfl, rfl⟩)

/-- **C52** Same for rot_surface_code_css.py. -/
theorem C52_rot_s (h : rotSurfaceCodeRectangle dx dz a = .ok l0) (hw : WithParams l0 l)
    (e : rotSetTransS q l = (.ok (), l')) (hk : KeptGate ("trans-s_" ++ a.label) l' l'') (nm : NoiseModel)
    (hr : CanRun nm l'') (hargs : MemoryArgs cfg nm l'' dataInit ancDetectors) (hargs' : GateArgs cfg [l''] dataInit)
    (o o' : SetOrder) (rotBasis reset : Bool) (hn : n % 2 = 0) (m : Nat) :
    ∃ log, (if rotBasis then l''.logX else l''.logZ).get? a.label = some log ∧
      FixedGateValues cfg nm l'' (n * m) dataInit rotBasis rotBasis ancDetectors log
        (repeatedS (rotCss cfg o nm) o' nm l'' n m dataInit rotBasis reset ancDetectors) := by
  obtain ⟨hu, hd2, P, G, sw, hrs, hst⟩ := rot_trans_s_tables h hw e hk
  have hs : WithParams l l' := (C40_rot_only_stores h hw e).1
  have hnum := (rot_numCoords h).params (WithParams.trans hw (WithParams.trans hs hk.1))
  have hc := hu.codeGrid (by omega) (by omega)
  obtain ⟨Z, hgb⟩ := hst.gateBlock hu.grid hr o' (Or.inl hu.code) (firstLogical_of hu.log)
    (C40_rot_maps_logicals h hw e hk nm hr o').1 (C40_rot_maps_logicals h hw e hk nm hr o').2
  obtain ⟨D, d1, d2, d3, d4⟩ := transS_iff (cfg := cfg) (nm := nm) hu.grid o' (firstLogical_of hu.log) hst.stored
  refine ⟨if rotBasis then logXList a dx (dx + 1) else logZList a (dx + 1), ?_, ?_⟩
  · cases rotBasis
    · simp [hu.logZ, Dict.get?]
    · simp [hu.logX, Dict.get?]
  · rw [repeatedS_fun _ _ hn]
    exact gateExp_grid hu.grid hr hnum hu.log hu.logX hu.logZ hc rotBasis rotBasis hargs hargs' rfl (fun _ => rfl)
      (fun _ => rfl) (initEff_css hr hu.grid o hargs.init rotBasis) (hu.css (by omega) hr o reset)
      (measEff_css hr hu.grid rotBasis) hgb d1 d2 d3 d4 o' n m (Or.inl ⟨hn, rfl, rfl⟩)

/-- **C52** Same for rot_surface_code_css_pipelined.py. -/
theorem C52_rot_s_pipelined (h : rotSurfaceCodeRectangle dx dz a = .ok l0) (hw : WithParams l0 l)
    (e : rotSetTransS q l = (.ok (), l')) (hk : KeptGate ("trans-s_" ++ a.label) l' l'') (nm : NoiseModel)
    (hr : CanRun nm l'') (hargs : MemoryArgs cfg nm l'' dataInit ancDetectors) (hargs' : GateArgs cfg [l''] dataInit)
    (o o' : SetOrder) (rotBasis reset : Bool) (hn : n % 2 = 0) (m : Nat) :
    ∃ log, (if rotBasis then l''.logX else l''.logZ).get? a.label = some log ∧
      FixedGateValues cfg nm l'' (n * m) dataInit rotBasis rotBasis ancDetectors log
        (repeatedS (rotCssPipelined cfg o nm) o' nm l'' n m dataInit rotBasis reset ancDetectors) := by
  obtain ⟨hu, hd2, P, G, sw, hrs, hst⟩ := rot_trans_s_tables h hw e hk
  have hs : WithParams l l' := (C40_rot_only_stores h hw e).1
  have hnum := (rot_numCoords h).params (WithParams.trans hw (WithParams.trans hs hk.1))
  have hc := hu.codeGrid (by omega) (by omega)
  obtain ⟨Z, hgb⟩ := hst.gateBlock hu.grid hr o' (Or.inl hu.code) (firstLogical_of hu.log)
    (C40_rot_maps_logicals h hw e hk nm hr o').1 (C40_rot_maps_logicals h hw e hk nm hr o').2
  obtain ⟨D, d1, d2, d3, d4⟩ := transS_iff (cfg := cfg) (nm := nm) hu.grid o' (firstLogical_of hu.log) hst.stored
  refine ⟨if rotBasis then logXList a dx (dx + 1) else logZList a (dx + 1), ?_, ?_⟩
  · cases rotBasis
    · simp [hu.logZ, Dict.get?]
    · simp [hu.logX, Dict.get?]
  · rw [repeatedS_fun _ _ hn]
    exact gateExp_grid hu.grid hr hnum hu.log hu.logX hu.logZ hc rotBasis rotBasis hargs hargs' rfl (fun _ => rfl)
      (fun _ => rfl) (initEff_css hr hu.grid o hargs.init rotBasis) (hu.cssPipe hr o reset)
      (measEff_css hr hu.grid rotBasis) hgb d1 d2 d3 d4 o' n m (Or.inl ⟨hn, rfl, rfl⟩)

/-- **C52** Experiments `repeated_h_experiment` of unrot_surface_code_css.py, for any number of gates: after an odd number
the data qubits are measured in the other basis, and the observable is the parity of the initial bits of the qubits that are
swapped with the qubits of the logical operator of that basis. -/
theorem C52_unrot_h (h : unrotSurfaceCodeRectangle dx dz a = .ok l0) (hw : WithParams l0 l)
    (e : unrotSetTransH q l = (.ok (), l')) (hk : KeptGate ("trans-h_" ++ a.label) l' l'') (h2 : 2 ≤ dx) (nm : NoiseModel)
    (hr : CanRun nm l'') (hargs : MemoryArgs cfg nm l'' dataInit ancDetectors) (hargs' : GateArgs cfg [l''] dataInit)
    (o o' : SetOrder) (rotBasis reset : Bool) (n m : Nat) :
    let rotBasis' := if n % 2 = 0 then rotBasis else !rotBasis
    ∃ log, (if rotBasis' then l''.logX else l''.logZ).get? a.label = some log ∧
      FixedGateValues cfg nm l'' (n * m) dataInit rotBasis rotBasis' ancDetectors
        (if n % 2 = 0 then log else swapped l'' ("trans-h_" ++ a.label) log)
        (repeatedH (unrotCss cfg o nm) o' nm l'' n m dataInit rotBasis reset ancDetectors) := by
  intro rb'
  obtain ⟨rfl, h1, -, p, ε, hq, hε, ht⟩ := unrotSetTransH_ok h hw e
  have hw' := WithParams.trans hw (WithParams.trans h1 hk.1)
  have hu := isUnrot_of_params h hw'
  have hnum := (unrot_numCoords h).params hw'
  have ht := ht.congr hk.2
  have hc := hu.codeGrid (by omega) (by omega)
  have hgb := ht.gateBlock hu hr o' hε hq
  obtain ⟨D, d1, d2, d3, d4⟩ := transH_iff (cfg := cfg) (nm := nm) hu.grid o' (firstLogical_of hu.log) ht.stored
  refine ⟨if rb' then logXList a dz (2 * dz - 1) else logZList a dz, ?_, ?_⟩
  · cases rb'
    · simp [hu.logZ, Dict.get?]
    · simp [hu.logX, Dict.get?]
  · rw [repeatedH_fun]
    have hsub : ∀ rb : Bool, ∀ d ∈ (if rb then logXList a dz (2 * dz - 1) else logZList a dz),
        d ∈ dataOf (unrotEntries a dz dz) := by
      intro rb
      cases rb
      · exact hc.subZ
      · exact hc.subX
    refine gateExp_grid hu.grid hr hnum hu.log hu.logX hu.logZ hc rotBasis rb' hargs hargs' rfl (fun _ => rfl)
      (fun _ => rfl) (initEff_css hr hu.grid o hargs.init rotBasis) (hu.css h2 hr o reset)
      (measEff_css hr hu.grid rb') hgb d1 d2 d3 d4 o' n m ?_
    by_cases hn : n % 2 = 0
    · refine Or.inl ⟨hn, ?_, ?_⟩
      · simp only [rb', if_pos hn]
      · simp only [rb', if_pos hn]
    · refine Or.inr ⟨by omega, ?_, fun x z => ?_⟩
      · rw [if_neg hn]
        intro d hd
        obtain ⟨d', hd', rfl⟩ := List.mem_map.1 hd
        obtain ⟨s, hs⟩ := mem_dataOf.1 (hsub _ d' hd')
        exact mem_dataOf.2 ⟨_, (ht.swapWith hs).1⟩
      · rw [if_neg hn]
        unfold swapped
        rw [List.map_map]
        refine List.map_congr_left fun d hd => ?_
        have hdd := hsub _ d hd
        have hrb : rb' = !rotBasis := by simp only [rb', if_neg hn]
        rw [hrb]
        cases rotBasis <;> simp [hdd, swapWith]

/-- **C52** As quantum circuits the experiments are deterministic: no outcome with a different value of a detector or
observable has a non-zero probability. -/
theorem C52_unrot_s_quantum (h : unrotSurfaceCodeRectangle dx dz a = .ok l0) (hw : WithParams l0 l)
    (e : unrotSetTransS q l = (.ok (), l')) (hk : KeptGate ("trans-s_" ++ a.label) l' l'') (h2 : 2 ≤ dx) (nm : NoiseModel)
    (hr : CanRun nm l'') (hargs : MemoryArgs cfg nm l'' dataInit ancDetectors) (hargs' : GateArgs cfg [l''] dataInit)
    (o o' : SetOrder) (rotBasis reset : Bool) (hn : n % 2 = 0) (m : Nat) :
    AlwaysDeterministic cfg (repeatedS (unrotCss cfg o nm) o' nm l'' n m dataInit rotBasis reset ancDetectors false) := by
  obtain ⟨log, -, hv⟩ := C52_unrot_s h hw e hk h2 nm hr hargs hargs' o o' rotBasis reset hn m
  exact hv.deterministic

/-- **C52** Same for rot_surface_code_css.py and rot_surface_code_css_pipelined.py. -/
theorem C52_rot_s_quantum (h : rotSurfaceCodeRectangle dx dz a = .ok l0) (hw : WithParams l0 l)
    (e : rotSetTransS q l = (.ok (), l')) (hk : KeptGate ("trans-s_" ++ a.label) l' l'') (nm : NoiseModel)
    (hr : CanRun nm l'') (hargs : MemoryArgs cfg nm l'' dataInit ancDetectors) (hargs' : GateArgs cfg [l''] dataInit)
    (o o' : SetOrder) (rotBasis reset : Bool) (hn : n % 2 = 0) (m : Nat) :
    AlwaysDeterministic cfg (repeatedS (rotCss cfg o nm) o' nm l'' n m dataInit rotBasis reset ancDetectors false) ∧
      AlwaysDeterministic cfg
        (repeatedS (rotCssPipelined cfg o nm) o' nm l'' n m dataInit rotBasis reset ancDetectors false) := by
  obtain ⟨log, -, hv⟩ := C52_rot_s h hw e hk nm hr hargs hargs' o o' rotBasis reset hn m
  obtain ⟨log', -, hv'⟩ := C52_rot_s_pipelined h hw e hk nm hr hargs hargs' o o' rotBasis reset hn m
  exact ⟨hv.deterministic, hv'.deterministic⟩

/-- **C52** Same for the logical H. -/
theorem C52_unrot_h_quantum (h : unrotSurfaceCodeRectangle dx dz a = .ok l0) (hw : WithParams l0 l)
    (e : unrotSetTransH q l = (.ok (), l')) (hk : KeptGate ("trans-h_" ++ a.label) l' l'') (h2 : 2 ≤ dx) (nm : NoiseModel)
    (hr : CanRun nm l'') (hargs : MemoryArgs cfg nm l'' dataInit ancDetectors) (hargs' : GateArgs cfg [l''] dataInit)
    (o o' : SetOrder) (rotBasis reset : Bool) (n m : Nat) :
    AlwaysDeterministic cfg (repeatedH (unrotCss cfg o nm) o' nm l'' n m dataInit rotBasis reset ancDetectors false) := by
  obtain ⟨log, -, hv⟩ := C52_unrot_h h hw e hk h2 nm hr hargs hargs' o o' rotBasis reset n m
  exact hv.deterministic

/-- Two logical S on the unrotated code of distance 2 (one round after each), with D1 (in the logical Z operator) set to one. -/
example (o o' : SetOrder) : ∃ (l l' : Layout) (log : List String), unrotSurfaceCode 2 unrotDefault = .ok l ∧
    unrotSetTransS "D1" l = (.ok (), l') ∧ l'.logZ.get? "L0" = some log ∧ bits [("D1", 1)] log = 1 ∧
    bits [("D1", 1)] (l'.getNeighbors ["Z1"] none) = 1 ∧ newGen l' "trans-s_L0" "X1" = ["X1", "Z1"] ∧
    FixedGateValues (configFor l' .postGate) (noiselessFor l') l' (2 * 1) [("D1", 1)] false false none log
      (repeatedS (unrotCss (configFor l' .postGate) o (noiselessFor l')) o' (noiselessFor l') l' (2 : Nat) (1 : Nat)
        [("D1", 1)] false false none) := by
  have h1 : unrotSurfaceCode 2 unrotDefault = .ok (layoutOf (unrotSurfaceCode 2 unrotDefault)) :=
    ok_layoutOf (by decide +kernel)
  have h2 : unrotSetTransS "D1" (layoutOf (unrotSurfaceCode 2 unrotDefault)) = (.ok (), sExample) :=
    Prod.ext (by decide +kernel) rfl
  have h3 := canRun_noiseless (l := sExample) (by decide +kernel)
  have h4 : argsFine sExample [("D1", 1)] none = true := by decide +kernel
  have h5 : GateArgs (configFor sExample .postGate) [sExample] [("D1", 1)] := by
    refine ⟨by decide +kernel, ?_, ?_⟩
    · decide +kernel
    · decide +kernel
  obtain ⟨log, k1, k2⟩ := C52_unrot_s h1 .refl h2 ⟨.refl, fun _ => rfl⟩ (by decide) _ h3
    (memoryArgs_noiseless (frame := .postGate) h4) h5 o o' false false (n := 2) rfl 1
  refine ⟨_, _, log, h1, h2, k1, ?_, by decide +kernel, by decide +kernel, k2⟩
  have : sExample.logZ.get? "L0" = some ["D1", "D2"] := by decide +kernel
  have k1' : sExample.logZ.get? "L0" = some log := k1
  rw [this] at k1'
  cases k1'
  decide +kernel

/-- One logical H on the unrotated code of distance 2: the X1 and Z1 generators are exchanged, the code is prepared in the Z
basis and measured in the X basis. -/
example (o o' : SetOrder) : ∃ (l l' : Layout) (log : List String), unrotSurfaceCode 2 unrotDefault = .ok l ∧
    unrotSetTransH "D1" l = (.ok (), l') ∧ l'.logX.get? "L0" = some log ∧
    bits [("D2", 1)] (swapped l' "trans-h_L0" log) = 1 ∧
    FixedGateValues (configFor l' .preGate) (noiselessFor l') l' (1 * 3) [("D2", 1)] false true none
      (swapped l' "trans-h_L0" log)
      (repeatedH (unrotCss (configFor l' .preGate) o (noiselessFor l')) o' (noiselessFor l') l' (1 : Nat) (3 : Nat)
        [("D2", 1)] false true none) := by
  have h1 : unrotSurfaceCode 2 unrotDefault = .ok (layoutOf (unrotSurfaceCode 2 unrotDefault)) :=
    ok_layoutOf (by decide +kernel)
  have h2 : unrotSetTransH "D1" (layoutOf (unrotSurfaceCode 2 unrotDefault)) = (.ok (), hExample) :=
    Prod.ext (by decide +kernel) rfl
  have h3 := canRun_noiseless (l := hExample) (by decide +kernel)
  have h4 : argsFine hExample [("D2", 1)] none = true := by decide +kernel
  have h5 : GateArgs (configFor hExample .preGate) [hExample] [("D2", 1)] := by
    refine ⟨by decide +kernel, ?_, ?_⟩
    · decide +kernel
    · decide +kernel
  obtain ⟨log, k1, k2⟩ := C52_unrot_h h1 .refl h2 ⟨.refl, fun _ => rfl⟩ (by decide) _ h3
    (memoryArgs_noiseless (frame := .preGate) h4) h5 o o' false true 1 3
  refine ⟨_, _, log, h1, h2, k1, ?_, k2⟩
  have : hExample.logX.get? "L0" = some ["D1", "D4"] := by decide +kernel
  have k1' : hExample.logX.get? "L0" = some log := k1
  rw [this] at k1'
  cases k1'
  decide +kernel

/-- The experiment of the next theorem. -/
def hIndependent : PyM (Sim (configFor hExample .gateIndependent)) Circuit :=
  repeatedH (unrotCss (configFor hExample .gateIndependent) .insertion (noiselessFor hExample)) .insertion
    (noiselessFor hExample) hExample 1 1 [] false true none false

/-- **C52** The assumption on the frame is needed: with the frame "gate-independent" the detectors of the same experiment depend
on random outcomes, as documented for this frame. -/
theorem C52_gate_independent_varies : ∃ c s s', hIndependent s = (.ok c, s') ∧ ¬ Deterministic (ops c) := by
  refine ⟨circuitOf hIndependent (MeasState.fresh (noiselessFor hExample).inds, Detectors.State.fresh _), _, _,
    eq_circuitOf (by decide +kernel), ?_⟩
  rw [C51_deterministic (by decide +kernel)]
  intro h
  have := (h 0 0 0 1).1
  revert this
  decide +kernel

end SurfaceSim.Props
