/-
Programs of logical operations have fixed detectors and observables (C62).
-/
import Verif.Lemmas.ProgramCodes
import Verif.Props.GateExp

namespace SurfaceSim
open Spec NoiseModel Blocks Experiments LayoutLib

variable {cfg : Detectors.Config} {nm : NoiseModel} {l : Layout} {a : Args} {dx dz : Int} {dataInit : Dict String Int}
  {ancDetectors : Option (List String)} {n : Nat}

theorem Spec.FixedProgramValues.deterministic {k : Nat} {rb rb' : Bool} {support : List String} {flip : ZMod 2}
    {e : Bool → PyM (Sim cfg) Circuit}
    (h : FixedProgramValues cfg nm l k dataInit rb rb' ancDetectors support flip e) : AlwaysDeterministic cfg (e false) := by
  intro s
  obtain ⟨data, anc, stabs, stabs', -, -, -, -, h⟩ := h
  obtain ⟨c, s', e1, hp, -, hv⟩ := h false s
  refine ⟨c, s', e1, (Props.C51_deterministic hp.2).2 fun ζ ρ ζ' ρ' => ?_⟩
  have v1 := hv ζ ρ
  have v2 := hv ζ' ρ'
  simp only [Bool.false_eq_true, if_false] at v1 v2
  rw [v1.1, v1.2, v2.1, v2.2]
  exact ⟨rfl, rfl⟩

section
variable {L : List (String × Site × Kind)} {dirs : List (Site × String)} {lab : String} {lx lz : List String}

/-- What the blocks `log_x` and `log_z` do to the values. -/
def PaulisCss (nm : NoiseModel) (l : Layout) (L : List (String × Site × Kind)) (lx lz : List String) (o : SetOrder) : Prop :=
  BlockG nm (ancOf L) (typedValues nm l L lx lz (cssType L) fun _ => false) (flipMap fun k => if k then 0 else 1)
      (logX o nm l) ∧
    BlockG nm (ancOf L) (typedValues nm l L lx lz (cssType L) fun _ => false) (flipMap fun k => if k then 1 else 0)
      (logZ o nm l)

theorem pauli_css (hg : OnGrid l L dirs) (hr : CanRun nm l) (o : SetOrder) (h1 : l.logQubits = [lab])
    (h2 : l.logX = [(lab, lx)]) (h3 : l.logZ = [(lab, lz)]) (hc : CodeGrid l L lx lz) (nx : lx.Nodup) (nz : lz.Nodup)
    (hov : overlap lx lz = 1 ∧ overlap lz lx = 1) :
    PaulisCss nm l L lx lz o := by
  have dX := does_logX hg hr o h1 h2 h3 hc.subX
  have dZ := does_logZ hg hr o h1 h2 h3 hc.subZ
  have gx : l.logX.get? lab = some lx := by simp [h2, Dict.get?]
  have gz : l.logZ.get? lab = some lz := by simp [h3, Dict.get?]
  exact ⟨blockG_pauli hg h2 h3 (appliesLogical_grid hg hr (typed_css hg) hc nx nz hov gx gz true nx List.nodup_nil (by simp)
      (by simp) dX) (pairs_pauli hr.inj dX),
    blockG_pauli hg h2 h3 (appliesLogical_grid hg hr (typed_css hg) hc nx nz hov gx gz false List.nodup_nil nz (by simp)
      (by simp) dZ) (pairs_pauli hr.inj dZ)⟩

end

theorem IsRot.pauli_css (h : IsRot a dx dz l) (hr : CanRun nm l) (o : SetOrder) (hdx : 1 ≤ dx) (hdz : 1 ≤ dz) :
    PaulisCss nm l (rotEntries a dx dz) (logXList a dx dz) (logZList a dz) o :=
  SurfaceSim.pauli_css h.grid hr o h.log h.logX h.logZ (h.codeGrid hdx hdz) (logXList_nodup a dx (by omega))
    (logZList_nodup a dz) (rot_logs_overlap h.grid hdx hdz)

theorem IsUnrot.pauli_css (h : IsUnrot a dx dz l) (hr : CanRun nm l) (o : SetOrder) (hdx : 1 ≤ dx) (hdz : 1 ≤ dz) :
    PaulisCss nm l (unrotEntries a dx dz) (logXList a dx (2 * dz - 1)) (logZList a dz) o :=
  SurfaceSim.pauli_css h.grid hr o h.log h.logX h.logZ (h.codeGrid hdx hdz) (logXList_nodup a dx (by omega))
    (logZList_nodup a dz) (unrot_logs_overlap h.grid hdx hdz)

/-- The blocks `log_x_xzzx` and `log_z_xzzx`. -/
theorem IsRot.pauli_xzzx (h : IsRot a dx dz l) (hr : CanRun nm l) (o : SetOrder) (hdx : 2 ≤ dx) (hdz : 2 ≤ dz) :
    BlockG nm (ancOf (rotEntries a dx dz)) (typedValues nm l (rotEntries a dx dz) (logXList a dx dz) (logZList a dz)
        (xzzxType l) (xzzxRotated l (zOf (rotEntries a dx dz)))) (flipMap fun k => if k then 0 else 1) (logXXzzx o nm l) ∧
      BlockG nm (ancOf (rotEntries a dx dz)) (typedValues nm l (rotEntries a dx dz) (logXList a dx dz) (logZList a dz)
        (xzzxType l) (xzzxRotated l (zOf (rotEntries a dx dz)))) (flipMap fun k => if k then 1 else 0) (logZXzzx o nm l) := by
  have hc := h.codeGrid (by omega) (by omega)
  obtain ⟨px, pz, n1, n2, h1, h2, dX⟩ := does_logXXzzx h.grid hr o h.log h.logX h.logZ hc.subX
  obtain ⟨px', pz', n1', n2', h1', h2', dZ⟩ := does_logZXzzx h.grid hr o h.log h.logX h.logZ hc.subZ
  have gx : l.logX.get? a.label = some (logXList a dx dz) := by simp [h.logX, Dict.get?]
  have gz : l.logZ.get? a.label = some (logZList a dz) := by simp [h.logZ, Dict.get?]
  have hov := rot_logs_overlap h.grid (by omega) (by omega)
  have nx := logXList_nodup a dx (show 0 < dz by omega)
  have nz := logZList_nodup a dz
  refine ⟨blockG_pauli h.grid h.logX h.logZ (appliesLogical_grid h.grid hr (h.typed_xzzx hdx hdz) hc nx nz hov gx gz true n1 n2
      (fun d => ?_) (fun d => ?_) dX) (pairs_pauli hr.inj dX),
    blockG_pauli h.grid h.logX h.logZ (appliesLogical_grid h.grid hr (h.typed_xzzx hdx hdz) hc nx nz hov gx gz false n1' n2'
      (fun d => ?_) (fun d => ?_) dZ) (pairs_pauli hr.inj dZ)⟩
  · rw [h1]
    refine and_congr_right fun hdl => ?_
    rw [h.mem_xzzxR hdx hdz false (hc.subX d hdl)]
    simp
  · rw [h2]
    refine and_congr_right fun hdl => ?_
    rw [h.mem_xzzxR hdx hdz false (hc.subX d hdl)]
    simp
  · rw [h1']
    refine and_congr_right fun hdl => ?_
    rw [h.mem_xzzxR hdx hdz false (hc.subZ d hdl)]
    simp
  · rw [h2']
    refine and_congr_right fun hdl => ?_
    rw [h.mem_xzzxR hdx hdz false (hc.subZ d hdl)]
    simp

theorem flipsOf_s (f : Bool → ZMod 2) (rb : Bool) : flipsOf imageS f rb = signOf rb (Step.act .s .gate (f true, f false)) := by
  cases rb <;> simp [flipsOf, imageS, signOf, Step.act]

theorem flipsOf_h (f : Bool → ZMod 2) (rb : Bool) :
    flipsOf (fun k => [!k]) f rb = signOf rb (Step.act .h .gate (f true, f false)) := by
  cases rb <;> simp [flipsOf, signOf, Step.act]

end SurfaceSim

namespace SurfaceSim.Props
open Spec NoiseModel Blocks Experiments LayoutLib LogGates

variable {cfg : Detectors.Config} {l0 l l' l'' : Layout} {a : Args} {dx dz : Int} {q : String} {dataInit : Dict String Int}
  {ancDetectors : Option (List String)} {n : Nat}

/-- **C62** Every program of rounds, logical S, X and Z on an unrotated code, in any order: whatever the random outcomes, all
detectors and the observable have fixed values.  The detectors after the first round are zero, and the observable has the sign
that the logical operations give to the logical operator.  After an odd number of S the X basis has no fixed outcome. -/
theorem C62_unrot_s (h : unrotSurfaceCodeRectangle dx dz a = .ok l0) (hw : WithParams l0 l)
    (e : unrotSetTransS q l = (.ok (), l')) (hk : KeptGate ("trans-s_" ++ a.label) l' l'') (h2 : 2 ≤ dx) (nm : NoiseModel)
    (hr : CanRun nm l'') (hargs : MemoryArgs cfg nm l'' dataInit ancDetectors) (hargs' : GateArgs cfg [l''] dataInit)
    (o o' : SetOrder) (rotBasis reset : Bool) (steps : List Step)
    (hn : rotBasis = true → steps.count Step.gate % 2 = 0) :
    ∃ log, (if rotBasis then l''.logX else l''.logZ).get? a.label = some log ∧
      FixedProgramValues cfg nm l'' (steps.count Step.round) dataInit rotBasis rotBasis ancDetectors log
        (signOf rotBasis (signs .s steps))
        (program (unrotCss cfg o nm) o' nm l'' (onModel (logX o' nm l'')) (onModel (logZ o' nm l'')) (transS o' nm l'')
          steps dataInit rotBasis rotBasis reset ancDetectors) := by
  obtain ⟨hu, hd1, p, e1, e2, P, G, sw, hc1, hc2, hε, hus, hst⟩ := trans_s_tables h hw e hk
  have hs : WithParams l l' := (C40_only_stores h hw e).1
  have hnum := (unrot_numCoords h).params (WithParams.trans hw (WithParams.trans hs hk.1))
  have hc := hu.codeGrid hd1 hd1
  obtain ⟨Z, hgb⟩ := hst.gateBlock hu.grid hr o' (Or.inr hu.code) (firstLogical_of hu.log)
    (C40_maps_logicals h hw e hk nm hr o').1 (C40_maps_logicals h hw e hk nm hr o').2
  obtain ⟨D, d1, d2, d3, d4⟩ := transS_iff (cfg := cfg) (nm := nm) hu.grid o' (firstLogical_of hu.log) hst.stored
  obtain ⟨bx, bz⟩ := hu.pauli_css hr o' hd1 hd1
  refine ⟨if rotBasis then logXList a dx (2 * dx - 1) else logZList a dx, ?_, ?_⟩
  · cases rotBasis
    · simp [hu.logZ, Dict.get?]
    · simp [hu.logX, Dict.get?]
  · refine program_gate hu.grid hr hnum hu.log hu.logX hu.logZ hc rotBasis rotBasis hargs hargs' rfl (fun _ => rfl)
      (fun _ => rfl) (initEff_css hr hu.grid o hargs.init rotBasis) (hu.css h2 hr o reset) (measEff_css hr hu.grid rotBasis)
      bx bz hgb d1 d2 d3 d4 .s flipsOf_s o' steps ?_
    by_cases hev : steps.count Step.gate % 2 = 0
    · exact Or.inl ⟨hev, rfl, rfl⟩
    · have hrb : rotBasis = false := by
        cases rotBasis
        · rfl
        · exact absurd (hn rfl) hev
      subst hrb
      exact Or.inr ⟨by omega, hc.subZ, fun x z => rfl⟩

/-- **C62** Same for the blocks of rot_surface_code_css.py. -/
theorem C62_rot_s (h : rotSurfaceCodeRectangle dx dz a = .ok l0) (hw : WithParams l0 l)
    (e : rotSetTransS q l = (.ok (), l')) (hk : KeptGate ("trans-s_" ++ a.label) l' l'') (nm : NoiseModel)
    (hr : CanRun nm l'') (hargs : MemoryArgs cfg nm l'' dataInit ancDetectors) (hargs' : GateArgs cfg [l''] dataInit)
    (o o' : SetOrder) (rotBasis reset : Bool) (steps : List Step)
    (hn : rotBasis = true → steps.count Step.gate % 2 = 0) :
    ∃ log, (if rotBasis then l''.logX else l''.logZ).get? a.label = some log ∧
      FixedProgramValues cfg nm l'' (steps.count Step.round) dataInit rotBasis rotBasis ancDetectors log
        (signOf rotBasis (signs .s steps))
        (program (rotCss cfg o nm) o' nm l'' (onModel (logX o' nm l'')) (onModel (logZ o' nm l'')) (transS o' nm l'')
          steps dataInit rotBasis rotBasis reset ancDetectors) := by
  obtain ⟨hu, hd2, P, G, sw, hrs, hst⟩ := rot_trans_s_tables h hw e hk
  have hs : WithParams l l' := (C40_rot_only_stores h hw e).1
  have hnum := (rot_numCoords h).params (WithParams.trans hw (WithParams.trans hs hk.1))
  have hc := hu.codeGrid (by omega) (by omega)
  obtain ⟨Z, hgb⟩ := hst.gateBlock hu.grid hr o' (Or.inl hu.code) (firstLogical_of hu.log)
    (C40_rot_maps_logicals h hw e hk nm hr o').1 (C40_rot_maps_logicals h hw e hk nm hr o').2
  obtain ⟨D, d1, d2, d3, d4⟩ := transS_iff (cfg := cfg) (nm := nm) hu.grid o' (firstLogical_of hu.log) hst.stored
  obtain ⟨bx, bz⟩ := hu.pauli_css hr o' (by omega) (by omega)
  refine ⟨if rotBasis then logXList a dx (dx + 1) else logZList a (dx + 1), ?_, ?_⟩
  · cases rotBasis
    · simp [hu.logZ, Dict.get?]
    · simp [hu.logX, Dict.get?]
  · refine program_gate hu.grid hr hnum hu.log hu.logX hu.logZ hc rotBasis rotBasis hargs hargs' rfl (fun _ => rfl)
      (fun _ => rfl) (initEff_css hr hu.grid o hargs.init rotBasis) (hu.css (by omega) hr o reset) (measEff_css hr hu.grid rotBasis)
      bx bz hgb d1 d2 d3 d4 .s flipsOf_s o' steps ?_
    by_cases hev : steps.count Step.gate % 2 = 0
    · exact Or.inl ⟨hev, rfl, rfl⟩
    · have hrb : rotBasis = false := by
        cases rotBasis
        · rfl
        · exact absurd (hn rfl) hev
      subst hrb
      exact Or.inr ⟨by omega, hc.subZ, fun x z => rfl⟩

/-- **C62** Same for the blocks of rot_surface_code_css_pipelined.py. -/
theorem C62_rot_s_pipelined (h : rotSurfaceCodeRectangle dx dz a = .ok l0) (hw : WithParams l0 l)
    (e : rotSetTransS q l = (.ok (), l')) (hk : KeptGate ("trans-s_" ++ a.label) l' l'') (nm : NoiseModel)
    (hr : CanRun nm l'') (hargs : MemoryArgs cfg nm l'' dataInit ancDetectors) (hargs' : GateArgs cfg [l''] dataInit)
    (o o' : SetOrder) (rotBasis reset : Bool) (steps : List Step)
    (hn : rotBasis = true → steps.count Step.gate % 2 = 0) :
    ∃ log, (if rotBasis then l''.logX else l''.logZ).get? a.label = some log ∧
      FixedProgramValues cfg nm l'' (steps.count Step.round) dataInit rotBasis rotBasis ancDetectors log
        (signOf rotBasis (signs .s steps))
        (program (rotCssPipelined cfg o nm) o' nm l'' (onModel (logX o' nm l'')) (onModel (logZ o' nm l'')) (transS o' nm l'')
          steps dataInit rotBasis rotBasis reset ancDetectors) := by
  obtain ⟨hu, hd2, P, G, sw, hrs, hst⟩ := rot_trans_s_tables h hw e hk
  have hs : WithParams l l' := (C40_rot_only_stores h hw e).1
  have hnum := (rot_numCoords h).params (WithParams.trans hw (WithParams.trans hs hk.1))
  have hc := hu.codeGrid (by omega) (by omega)
  obtain ⟨Z, hgb⟩ := hst.gateBlock hu.grid hr o' (Or.inl hu.code) (firstLogical_of hu.log)
    (C40_rot_maps_logicals h hw e hk nm hr o').1 (C40_rot_maps_logicals h hw e hk nm hr o').2
  obtain ⟨D, d1, d2, d3, d4⟩ := transS_iff (cfg := cfg) (nm := nm) hu.grid o' (firstLogical_of hu.log) hst.stored
  obtain ⟨bx, bz⟩ := hu.pauli_css hr o' (by omega) (by omega)
  refine ⟨if rotBasis then logXList a dx (dx + 1) else logZList a (dx + 1), ?_, ?_⟩
  · cases rotBasis
    · simp [hu.logZ, Dict.get?]
    · simp [hu.logX, Dict.get?]
  · refine program_gate hu.grid hr hnum hu.log hu.logX hu.logZ hc rotBasis rotBasis hargs hargs' rfl (fun _ => rfl)
      (fun _ => rfl) (initEff_css hr hu.grid o hargs.init rotBasis) (hu.cssPipe hr o reset) (measEff_css hr hu.grid rotBasis)
      bx bz hgb d1 d2 d3 d4 .s flipsOf_s o' steps ?_
    by_cases hev : steps.count Step.gate % 2 = 0
    · exact Or.inl ⟨hev, rfl, rfl⟩
    · have hrb : rotBasis = false := by
        cases rotBasis
        · rfl
        · exact absurd (hn rfl) hev
      subst hrb
      exact Or.inr ⟨by omega, hc.subZ, fun x z => rfl⟩

/-- **C62** Every program of rounds, logical H, X and Z on an unrotated code.  After an odd number of H the data qubits are
measured in the other basis. -/
theorem C62_unrot_h (h : unrotSurfaceCodeRectangle dx dz a = .ok l0) (hw : WithParams l0 l)
    (e : unrotSetTransH q l = (.ok (), l')) (hk : KeptGate ("trans-h_" ++ a.label) l' l'') (h2 : 2 ≤ dx) (nm : NoiseModel)
    (hr : CanRun nm l'') (hargs : MemoryArgs cfg nm l'' dataInit ancDetectors) (hargs' : GateArgs cfg [l''] dataInit)
    (o o' : SetOrder) (rotBasis reset : Bool) (steps : List Step) :
    let rotBasis' := if steps.count Step.gate % 2 = 0 then rotBasis else !rotBasis
    ∃ log, (if rotBasis' then l''.logX else l''.logZ).get? a.label = some log ∧
      FixedProgramValues cfg nm l'' (steps.count Step.round) dataInit rotBasis rotBasis' ancDetectors
        (if steps.count Step.gate % 2 = 0 then log else swapped l'' ("trans-h_" ++ a.label) log)
        (signOf rotBasis' (signs .h steps))
        (program (unrotCss cfg o nm) o' nm l'' (onModel (logX o' nm l'')) (onModel (logZ o' nm l'')) (transH o' nm l'')
          steps dataInit rotBasis rotBasis' reset ancDetectors) := by
  intro rb'
  obtain ⟨rfl, h1, -, p, ε, hq, hε, ht⟩ := unrotSetTransH_ok h hw e
  have hw' := WithParams.trans hw (WithParams.trans h1 hk.1)
  have hu := isUnrot_of_params h hw'
  have hnum := (unrot_numCoords h).params hw'
  have ht := ht.congr hk.2
  have hc := hu.codeGrid (by omega) (by omega)
  have hgb := ht.gateBlock hu hr o' hε hq
  obtain ⟨D, d1, d2, d3, d4⟩ := transH_iff (cfg := cfg) (nm := nm) hu.grid o' (firstLogical_of hu.log) ht.stored
  obtain ⟨bx, bz⟩ := hu.pauli_css hr o' (by omega) (by omega)
  refine ⟨if rb' then logXList a dz (2 * dz - 1) else logZList a dz, ?_, ?_⟩
  · cases rb'
    · simp [hu.logZ, Dict.get?]
    · simp [hu.logX, Dict.get?]
  · have hsub : ∀ rb : Bool, ∀ d ∈ (if rb then logXList a dz (2 * dz - 1) else logZList a dz),
        d ∈ dataOf (unrotEntries a dz dz) := by
      intro rb
      cases rb
      · exact hc.subZ
      · exact hc.subX
    refine program_gate hu.grid hr hnum hu.log hu.logX hu.logZ hc rotBasis rb' hargs hargs' rfl (fun _ => rfl)
      (fun _ => rfl) (initEff_css hr hu.grid o hargs.init rotBasis) (hu.css h2 hr o reset)
      (measEff_css hr hu.grid rb') bx bz hgb d1 d2 d3 d4 .h flipsOf_h o' steps ?_
    by_cases hn : steps.count Step.gate % 2 = 0
    · refine Or.inl ⟨hn, ?_, ?_⟩
      · simp only [rb', if_pos hn]
      · simp only [rb', if_pos hn]
    · refine Or.inr ⟨by omega, ?_, fun x z => ?_⟩
      · rw [if_neg hn]
        intro d hd
        obtain ⟨d', hd', rfl⟩ := List.mem_map.1 hd
        obtain ⟨s, hs⟩ := mem_dataOf.1 (hsub _ d' hd')
        exact mem_dataOf.2 ⟨_, (ht.swapWith hs).1⟩
      · rw [if_neg hn]
        unfold swapped
        rw [List.map_map]
        refine List.map_congr_left fun d hd => ?_
        have hdd := hsub _ d hd
        have hrb : rb' = !rotBasis := by simp only [rb', if_neg hn]
        rw [hrb]
        cases rotBasis <;> simp [hdd, swapWith]

/-- **C62** Without a transversal gate this holds for every unrotated code, also if it is not square. -/
theorem C62_unrot_plain (h : unrotSurfaceCodeRectangle dx dz a = .ok l0) (hw : WithParams l0 l) (hdx : 1 ≤ dx) (hdz : 2 ≤ dz)
    (nm : NoiseModel) (hr : CanRun nm l) (hargs : MemoryArgs cfg nm l dataInit ancDetectors)
    (hargs' : GateArgs cfg [l] dataInit) (o o' : SetOrder) (rotBasis reset : Bool) (steps : List Step)
    (hn : Step.gate ∉ steps) (g : PyM (Sim cfg) Circuit) :
    ∃ log, (if rotBasis then l.logX else l.logZ).get? a.label = some log ∧
      FixedProgramValues cfg nm l (steps.count Step.round) dataInit rotBasis rotBasis ancDetectors log
        (signOf rotBasis (signs .none steps))
        (program (unrotCss cfg o nm) o' nm l (onModel (logX o' nm l)) (onModel (logZ o' nm l)) g
          steps dataInit rotBasis rotBasis reset ancDetectors) := by
  have hu := isUnrot_of_params h hw
  have hnum := (unrot_numCoords h).params hw
  have hc := hu.codeGrid (by omega) (by omega)
  obtain ⟨bx, bz⟩ := hu.pauli_css hr o' (by omega) (by omega)
  refine ⟨if rotBasis then logXList a dx (2 * dz - 1) else logZList a dz, ?_, ?_⟩
  · cases rotBasis
    · simp [hu.logZ, Dict.get?]
    · simp [hu.logX, Dict.get?]
  · exact program_plain hu.grid hr hnum hu.log hu.logX hu.logZ hc (typed_css hu.grid) rotBasis css_R (css_type hu.grid)
      (css_logR hc) hargs hargs' rfl (fun _ => rfl) (fun _ => rfl) (initEff_css hr hu.grid o hargs.init rotBasis)
      (hu.css hdz hr o reset) (measEff_css hr hu.grid rotBasis) bx bz g steps hn o'

/-- **C62** Same for every rotated code. -/
theorem C62_rot_plain (h : rotSurfaceCodeRectangle dx dz a = .ok l0) (hw : WithParams l0 l) (hdx : 1 ≤ dx) (hdz : 2 ≤ dz)
    (nm : NoiseModel) (hr : CanRun nm l) (hargs : MemoryArgs cfg nm l dataInit ancDetectors)
    (hargs' : GateArgs cfg [l] dataInit) (o o' : SetOrder) (rotBasis reset : Bool) (steps : List Step)
    (hn : Step.gate ∉ steps) (g : PyM (Sim cfg) Circuit) :
    ∃ log, (if rotBasis then l.logX else l.logZ).get? a.label = some log ∧
      FixedProgramValues cfg nm l (steps.count Step.round) dataInit rotBasis rotBasis ancDetectors log
        (signOf rotBasis (signs .none steps))
        (program (rotCss cfg o nm) o' nm l (onModel (logX o' nm l)) (onModel (logZ o' nm l)) g
          steps dataInit rotBasis rotBasis reset ancDetectors) := by
  have hu := isRot_of_params h hw
  have hnum := (rot_numCoords h).params hw
  have hc := hu.codeGrid (by omega) (by omega)
  obtain ⟨bx, bz⟩ := hu.pauli_css hr o' (by omega) (by omega)
  refine ⟨if rotBasis then logXList a dx dz else logZList a dz, ?_, ?_⟩
  · cases rotBasis
    · simp [hu.logZ, Dict.get?]
    · simp [hu.logX, Dict.get?]
  · exact program_plain hu.grid hr hnum hu.log hu.logX hu.logZ hc (typed_css hu.grid) rotBasis css_R (css_type hu.grid)
      (css_logR hc) hargs hargs' rfl (fun _ => rfl) (fun _ => rfl) (initEff_css hr hu.grid o hargs.init rotBasis)
      (hu.css hdz hr o reset) (measEff_css hr hu.grid rotBasis) bx bz g steps hn o'

/-- **C62** Same for rot_surface_code_css_pipelined.py. -/
theorem C62_rot_plain_pipelined (h : rotSurfaceCodeRectangle dx dz a = .ok l0) (hw : WithParams l0 l) (hdx : 1 ≤ dx) (hdz : 1 ≤ dz)
    (nm : NoiseModel) (hr : CanRun nm l) (hargs : MemoryArgs cfg nm l dataInit ancDetectors)
    (hargs' : GateArgs cfg [l] dataInit) (o o' : SetOrder) (rotBasis reset : Bool) (steps : List Step)
    (hn : Step.gate ∉ steps) (g : PyM (Sim cfg) Circuit) :
    ∃ log, (if rotBasis then l.logX else l.logZ).get? a.label = some log ∧
      FixedProgramValues cfg nm l (steps.count Step.round) dataInit rotBasis rotBasis ancDetectors log
        (signOf rotBasis (signs .none steps))
        (program (rotCssPipelined cfg o nm) o' nm l (onModel (logX o' nm l)) (onModel (logZ o' nm l)) g
          steps dataInit rotBasis rotBasis reset ancDetectors) := by
  have hu := isRot_of_params h hw
  have hnum := (rot_numCoords h).params hw
  have hc := hu.codeGrid (by omega) (by omega)
  obtain ⟨bx, bz⟩ := hu.pauli_css hr o' (by omega) (by omega)
  refine ⟨if rotBasis then logXList a dx dz else logZList a dz, ?_, ?_⟩
  · cases rotBasis
    · simp [hu.logZ, Dict.get?]
    · simp [hu.logX, Dict.get?]
  · exact program_plain hu.grid hr hnum hu.log hu.logX hu.logZ hc (typed_css hu.grid) rotBasis css_R (css_type hu.grid)
      (css_logR hc) hargs hargs' rfl (fun _ => rfl) (fun _ => rfl) (initEff_css hr hu.grid o hargs.init rotBasis)
      (hu.cssPipe hr o reset) (measEff_css hr hu.grid rotBasis) bx bz g steps hn o'

/-- **C62** Same for rot_surface_code_xzzx_pipelined.py, with `log_x_xzzx` and `log_z_xzzx`. -/
theorem C62_xzzx_plain_pipelined (h : rotSurfaceCodeRectangle dx dz a = .ok l0) (hw : WithParams l0 l) (hdx : 2 ≤ dx) (hdz : 2 ≤ dz)
    (nm : NoiseModel) (hr : CanRun nm l) (hargs : MemoryArgs cfg nm l dataInit ancDetectors)
    (hargs' : GateArgs cfg [l] dataInit) (o o' : SetOrder) (rotBasis reset : Bool) (steps : List Step)
    (hn : Step.gate ∉ steps) (g : PyM (Sim cfg) Circuit) :
    ∃ log, (if rotBasis then l.logX else l.logZ).get? a.label = some log ∧
      FixedProgramValues cfg nm l (steps.count Step.round) dataInit rotBasis rotBasis ancDetectors log
        (signOf rotBasis (signs .none steps))
        (program (xzzxPipelined cfg o nm) o' nm l (onModel (logXXzzx o' nm l)) (onModel (logZXzzx o' nm l)) g
          steps dataInit rotBasis rotBasis reset ancDetectors) := by
  have hu := isRot_of_params h hw
  have hnum := (rot_numCoords h).params hw
  have hc := hu.codeGrid (by omega) (by omega)
  have hR : ∀ rb, ∀ q ∈ xzzxR l (rotEntries a dx dz) rb, q ∈ dataOf (rotEntries a dx dz) :=
    fun _ _ hq => xzzxR_data hu.grid hq
  obtain ⟨bx, bz⟩ := hu.pauli_xzzx hr o' hdx hdz
  refine ⟨if rotBasis then logXList a dx dz else logZList a dz, ?_, ?_⟩
  · cases rotBasis
    · simp [hu.logZ, Dict.get?]
    · simp [hu.logX, Dict.get?]
  · exact program_plain hu.grid hr hnum hu.log hu.logX hu.logZ hc (hu.typed_xzzx hdx hdz) rotBasis hR (hu.xzzx_type hdx hdz)
      (hu.xzzx_logR hdx hdz) hargs hargs' rfl (fun _ => rfl) (fun sel => logMeasXzzx_eq hu.code o rotBasis reset sel)
      (initEff_xzzx hr hu.grid o hargs.init hu.code rotBasis (hR rotBasis)) (hu.xzzxPipe hdx hdz hr o reset) (measEff_xzzx hr hu.grid o rotBasis (hR rotBasis))
      bx bz g steps hn o'

/-- **C62** As quantum circuits the programs are deterministic: no outcome with a different value of a detector or
observable has a non-zero probability. -/
theorem C62_unrot_s_quantum (h : unrotSurfaceCodeRectangle dx dz a = .ok l0) (hw : WithParams l0 l)
    (e : unrotSetTransS q l = (.ok (), l')) (hk : KeptGate ("trans-s_" ++ a.label) l' l'') (h2 : 2 ≤ dx) (nm : NoiseModel)
    (hr : CanRun nm l'') (hargs : MemoryArgs cfg nm l'' dataInit ancDetectors) (hargs' : GateArgs cfg [l''] dataInit)
    (o o' : SetOrder) (rotBasis reset : Bool) (steps : List Step)
    (hn : rotBasis = true → steps.count Step.gate % 2 = 0) :
    AlwaysDeterministic cfg (program (unrotCss cfg o nm) o' nm l'' (onModel (logX o' nm l'')) (onModel (logZ o' nm l''))
      (transS o' nm l'') steps dataInit rotBasis rotBasis reset ancDetectors false) := by
  obtain ⟨log, -, hv⟩ := C62_unrot_s h hw e hk h2 nm hr hargs hargs' o o' rotBasis reset steps hn
  exact hv.deterministic

/-- **C62** Same for rotated codes. -/
theorem C62_rot_s_quantum (h : rotSurfaceCodeRectangle dx dz a = .ok l0) (hw : WithParams l0 l)
    (e : rotSetTransS q l = (.ok (), l')) (hk : KeptGate ("trans-s_" ++ a.label) l' l'') (nm : NoiseModel)
    (hr : CanRun nm l'') (hargs : MemoryArgs cfg nm l'' dataInit ancDetectors) (hargs' : GateArgs cfg [l''] dataInit)
    (o o' : SetOrder) (rotBasis reset : Bool) (steps : List Step)
    (hn : rotBasis = true → steps.count Step.gate % 2 = 0) :
    AlwaysDeterministic cfg (program (rotCss cfg o nm) o' nm l'' (onModel (logX o' nm l'')) (onModel (logZ o' nm l''))
        (transS o' nm l'') steps dataInit rotBasis rotBasis reset ancDetectors false) ∧
      AlwaysDeterministic cfg (program (rotCssPipelined cfg o nm) o' nm l'' (onModel (logX o' nm l''))
        (onModel (logZ o' nm l'')) (transS o' nm l'') steps dataInit rotBasis rotBasis reset ancDetectors false) := by
  obtain ⟨log, -, hv⟩ := C62_rot_s h hw e hk nm hr hargs hargs' o o' rotBasis reset steps hn
  obtain ⟨log', -, hv'⟩ := C62_rot_s_pipelined h hw e hk nm hr hargs hargs' o o' rotBasis reset steps hn
  exact ⟨hv.deterministic, hv'.deterministic⟩

/-- **C62** Same for the logical H. -/
theorem C62_unrot_h_quantum (h : unrotSurfaceCodeRectangle dx dz a = .ok l0) (hw : WithParams l0 l)
    (e : unrotSetTransH q l = (.ok (), l')) (hk : KeptGate ("trans-h_" ++ a.label) l' l'') (h2 : 2 ≤ dx) (nm : NoiseModel)
    (hr : CanRun nm l'') (hargs : MemoryArgs cfg nm l'' dataInit ancDetectors) (hargs' : GateArgs cfg [l''] dataInit)
    (o o' : SetOrder) (rotBasis reset : Bool) (steps : List Step) :
    AlwaysDeterministic cfg (program (unrotCss cfg o nm) o' nm l'' (onModel (logX o' nm l'')) (onModel (logZ o' nm l''))
      (transH o' nm l'') steps dataInit rotBasis (if steps.count Step.gate % 2 = 0 then rotBasis else !rotBasis) reset
      ancDetectors false) := by
  obtain ⟨log, -, hv⟩ := C62_unrot_h h hw e hk h2 nm hr hargs hargs' o o' rotBasis reset steps
  exact hv.deterministic

/-- The signs of a program with S: Z, S, X, S and rounds.  The X before the second S gives the logical X operator another sign. -/
example : signs .s [.z, .gate, .round, .x, .gate] = (0, 1) ∧ signs .s [.x, .gate, .gate] = (0, 1) ∧
    signs .s [.z, .gate, .gate] = (1, 0) ∧ signs .h [.x, .gate, .round] = (1, 0) := by decide

/-- A program on the unrotated code of distance 2: Z, S, a round, S, in the X basis and with D1 set to one. -/
example (o o' : SetOrder) : ∃ (l l' : Layout) (log : List String), unrotSurfaceCode 2 unrotDefault = .ok l ∧
    unrotSetTransS "D1" l = (.ok (), l') ∧ l'.logX.get? "L0" = some log ∧ bits [("D1", 1)] log = 1 ∧
    signOf true (signs .s [.z, .gate, .round, .gate]) = 1 ∧
    FixedProgramValues (configFor l' .postGate) (noiselessFor l') l' 1 [("D1", 1)] true true none log 1
      (program (unrotCss (configFor l' .postGate) o (noiselessFor l')) o' (noiselessFor l') l'
        (onModel (logX o' (noiselessFor l') l')) (onModel (logZ o' (noiselessFor l') l')) (transS o' (noiselessFor l') l')
        [.z, .gate, .round, .gate] [("D1", 1)] true true false none) := by
  have h1 : unrotSurfaceCode 2 unrotDefault = .ok (layoutOf (unrotSurfaceCode 2 unrotDefault)) :=
    ok_layoutOf (by decide +kernel)
  have h2 : unrotSetTransS "D1" (layoutOf (unrotSurfaceCode 2 unrotDefault)) = (.ok (), sExample) :=
    Prod.ext (by decide +kernel) rfl
  have h3 := canRun_noiseless (l := sExample) (by decide +kernel)
  have h4 : argsFine sExample [("D1", 1)] none = true := by decide +kernel
  have h5 : GateArgs (configFor sExample .postGate) [sExample] [("D1", 1)] := by
    refine ⟨by decide +kernel, ?_, ?_⟩
    · decide +kernel
    · decide +kernel
  obtain ⟨log, k1, k2⟩ := C62_unrot_s h1 .refl h2 ⟨.refl, fun _ => rfl⟩ (by decide) _ h3
    (memoryArgs_noiseless (frame := .postGate) h4) h5 o o' true false [.z, .gate, .round, .gate] (by decide)
  refine ⟨_, _, log, h1, h2, k1, ?_, by decide, k2⟩
  have : sExample.logX.get? "L0" = some ["D1", "D4"] := by decide +kernel
  have k1' : sExample.logX.get? "L0" = some log := k1
  rw [this] at k1'
  cases k1'
  decide +kernel

/-- The program of the next theorem: one S. -/
def oddS (rb : Bool) : PyM (Sim (configFor sExample .postGate)) Circuit :=
  program (unrotCss (configFor sExample .postGate) .insertion (noiselessFor sExample)) .insertion (noiselessFor sExample)
    sExample (onModel (logX .insertion (noiselessFor sExample) sExample)) (onModel (logZ .insertion (noiselessFor sExample) sExample))
    (transS .insertion (noiselessFor sExample) sExample) [.gate] [] rb rb true none false

/-- **C62** The assumption on the number of S is needed in the X basis: after one S the observable is random. -/
theorem C62_odd_s_varies : ∃ c s s', oddS true s = (.ok c, s') ∧ ¬ Deterministic (ops c) := by
  refine ⟨circuitOf (oddS true) (MeasState.fresh (noiselessFor sExample).inds, Detectors.State.fresh _), _, _,
    eq_circuitOf (by decide +kernel), ?_⟩
  rw [C51_deterministic (by decide +kernel)]
  intro h
  have := (h 0 0 0 fun n => if n = 0 then 1 else 0).2
  revert this
  decide +kernel

end SurfaceSim.Props
