/-
Memory experiments: values of detectors and observables, order of the record (C32, C33).
-/
import Verif.Lemmas.Record
import Verif.Lemmas.Witness

namespace SurfaceSim
open Spec Blocks

/-- A `Detectors` object for the ancillas of a layout. -/
def configFor (l : Layout) (frame : Detectors.Frame) : Detectors.Config :=
  match ancQubits l with
  | .ok anc => ⟨anc, frame, anc.map fun a => (a, [])⟩
  | .error _ => ⟨[], frame, []⟩

/-- The arguments are fine for `noiselessFor` and `configFor`. -/
def argsFine (l : Layout) (dataInit : Dict String Int) (ancDetectors : Option (List String)) : Bool :=
  match l.getQubits [("role", .str "data")], l.getQubits [("role", .str "anc")] with
  | .ok data, .ok anc => decide anc.Nodup && data.all (fun d => decide (d ∉ anc)) &&
      (ancDetectors.getD []).all (fun a => decide (a ∈ anc)) &&
      dataInit.all fun kv => decide (kv.1 ∈ (noiselessFor l).inds.keys)
  | _, _ => false

theorem memoryArgs_noiseless {l : Layout} {frame : Detectors.Frame} {dataInit : Dict String Int}
    {ancDetectors : Option (List String)} (h : argsFine l dataInit ancDetectors = true) :
    MemoryArgs (configFor l frame) (noiselessFor l) l dataInit ancDetectors := by
  unfold argsFine at h
  split at h
  · rename_i data anc h1 h2
    simp only [Bool.and_eq_true, decide_eq_true_eq, List.all_eq_true] at h
    obtain ⟨⟨⟨k1, k2⟩, k3⟩, k4⟩ := h
    have hc : configFor l frame = ⟨anc, frame, anc.map fun a => (a, [])⟩ := by
      unfold configFor ancQubits; rw [h2]
    rw [hc]
    refine ⟨⟨k1, fun a ha => ?_⟩, fun qs hq => ?_, fun qs hq => ?_, fun q hq => ?_⟩
    · simpa [Dict.keys] using ha
    · rw [h2] at hq; cases hq
      refine ⟨fun a ha => ha, fun sel hs a ha => k3 a (by rw [hs]; exact ha)⟩
    · rw [h1] at hq; cases hq
      exact k2
    · unfold isOne at hq
      split at hq
      · rename_i hx
        obtain ⟨kv, h3, h4⟩ := List.any_eq_true.1 hx
        simp only [decide_eq_true_eq] at h4
        rw [← h4.1]; exact k4 kv h3
      · simp at hq
  · simp at h

/-- The circuit returned by an experiment, empty if it raises. -/
def circuitOf {cfg : Detectors.Config} (e : PyM (Sim cfg) Circuit) (s : Sim cfg) : Circuit :=
  match (e s).1 with
  | .ok c => c
  | .error _ => []

/-- Whether an experiment returns. -/
def finishes {cfg : Detectors.Config} (e : PyM (Sim cfg) Circuit) (s : Sim cfg) : Bool :=
  match (e s).1 with
  | .ok _ => true
  | .error _ => false

theorem eq_circuitOf {cfg : Detectors.Config} {e : PyM (Sim cfg) Circuit} {s : Sim cfg} (h : finishes e s = true) :
    e s = (.ok (circuitOf e s), (e s).2) := by
  unfold finishes at h
  unfold circuitOf
  cases hc : e s with
  | mk r s' =>
    rw [hc] at h
    cases r with
    | ok c => rfl
    | error x => simp at h

end SurfaceSim

namespace SurfaceSim.Props
open Spec NoiseModel Blocks Experiments LayoutLib

variable {cfg : Detectors.Config} {l l0 : Layout} {a : Args} {dx dz : Int} {dataInit : Dict String Int}
  {ancDetectors : Option (List String)}

/-- **C32** Memory experiments of rot_surface_code_css.py: the values of all detectors and of the observable are fixed
by the initial bits, for every number of rounds and all random outcomes. -/
theorem C32_rot_css (h : rotSurfaceCodeRectangle dx dz a = .ok l0) (hw : WithParams l0 l) (hdx : 1 ≤ dx) (hdz : 2 ≤ dz)
    (nm : NoiseModel) (hr : CanRun nm l) (hargs : MemoryArgs cfg nm l dataInit ancDetectors) (o o' : SetOrder)
    (rotBasis reset : Bool) (n : Nat) :
    FixedValues cfg l a.label n dataInit rotBasis reset ancDetectors
      (memory (rotCss cfg o nm) o' nm l n dataInit rotBasis reset ancDetectors false) :=
  ((isRot_of_params h hw).memory_css ((rot_numCoords h).params hw) hdx hdz hr hargs o o' rotBasis reset n).values

/-- **C32** Same for rot_surface_code_css_pipelined.py. -/
theorem C32_rot_css_pipelined (h : rotSurfaceCodeRectangle dx dz a = .ok l0) (hw : WithParams l0 l) (hdx : 1 ≤ dx)
    (hdz : 1 ≤ dz) (nm : NoiseModel) (hr : CanRun nm l) (hargs : MemoryArgs cfg nm l dataInit ancDetectors)
    (o o' : SetOrder) (rotBasis reset : Bool) (n : Nat) :
    FixedValues cfg l a.label n dataInit rotBasis reset ancDetectors
      (memory (rotCssPipelined cfg o nm) o' nm l n dataInit rotBasis reset ancDetectors false) :=
  ((isRot_of_params h hw).memory_cssPipe ((rot_numCoords h).params hw) hdx hdz hr hargs o o' rotBasis reset n).values

/-- **C32** Same for unrot_surface_code_css.py. -/
theorem C32_unrot_css (h : unrotSurfaceCodeRectangle dx dz a = .ok l0) (hw : WithParams l0 l) (hdx : 1 ≤ dx)
    (hdz : 2 ≤ dz) (nm : NoiseModel) (hr : CanRun nm l) (hargs : MemoryArgs cfg nm l dataInit ancDetectors)
    (o o' : SetOrder) (rotBasis reset : Bool) (n : Nat) :
    FixedValues cfg l a.label n dataInit rotBasis reset ancDetectors
      (memory (unrotCss cfg o nm) o' nm l n dataInit rotBasis reset ancDetectors false) :=
  ((isUnrot_of_params h hw).memory_css ((unrot_numCoords h).params hw) hdx hdz hr hargs o o' rotBasis reset n).values

/-- **C32** Same for rot_surface_code_xzzx_pipelined.py. -/
theorem C32_xzzx_pipelined (h : rotSurfaceCodeRectangle dx dz a = .ok l0) (hw : WithParams l0 l) (hdx : 2 ≤ dx)
    (hdz : 2 ≤ dz) (nm : NoiseModel) (hr : CanRun nm l) (hargs : MemoryArgs cfg nm l dataInit ancDetectors)
    (o o' : SetOrder) (rotBasis reset : Bool) (n : Nat) :
    FixedValues cfg l a.label n dataInit rotBasis reset ancDetectors
      (memory (xzzxPipelined cfg o nm) o' nm l n dataInit rotBasis reset ancDetectors false) :=
  ((isRot_of_params h hw).memory_xzzxPipe ((rot_numCoords h).params hw) hdx hdz hr hargs o o' rotBasis reset n).values

/-- **C32** With `gauge_detectors=True` the same holds, except for the detectors of the first round for ancillas that are
not of the type of the basis. -/
theorem C32_rot_css_gauge (h : rotSurfaceCodeRectangle dx dz a = .ok l0) (hw : WithParams l0 l) (hdx : 1 ≤ dx) (hdz : 2 ≤ dz)
    (nm : NoiseModel) (hr : CanRun nm l) (hargs : MemoryArgs cfg nm l dataInit ancDetectors) (o o' : SetOrder)
    (rotBasis reset : Bool) (n : Nat) :
    FixedButGauge cfg l a.label n dataInit rotBasis reset ancDetectors
      (memory (rotCss cfg o nm) o' nm l n dataInit rotBasis reset ancDetectors true) :=
  ((isRot_of_params h hw).memory_css ((rot_numCoords h).params hw) hdx hdz hr hargs o o' rotBasis reset n).gauge

/-- **C32** Same for rot_surface_code_css_pipelined.py. -/
theorem C32_rot_css_pipelined_gauge (h : rotSurfaceCodeRectangle dx dz a = .ok l0) (hw : WithParams l0 l) (hdx : 1 ≤ dx)
    (hdz : 1 ≤ dz) (nm : NoiseModel) (hr : CanRun nm l) (hargs : MemoryArgs cfg nm l dataInit ancDetectors)
    (o o' : SetOrder) (rotBasis reset : Bool) (n : Nat) :
    FixedButGauge cfg l a.label n dataInit rotBasis reset ancDetectors
      (memory (rotCssPipelined cfg o nm) o' nm l n dataInit rotBasis reset ancDetectors true) :=
  ((isRot_of_params h hw).memory_cssPipe ((rot_numCoords h).params hw) hdx hdz hr hargs o o' rotBasis reset n).gauge

/-- **C32** Same for unrot_surface_code_css.py. -/
theorem C32_unrot_css_gauge (h : unrotSurfaceCodeRectangle dx dz a = .ok l0) (hw : WithParams l0 l) (hdx : 1 ≤ dx)
    (hdz : 2 ≤ dz) (nm : NoiseModel) (hr : CanRun nm l) (hargs : MemoryArgs cfg nm l dataInit ancDetectors)
    (o o' : SetOrder) (rotBasis reset : Bool) (n : Nat) :
    FixedButGauge cfg l a.label n dataInit rotBasis reset ancDetectors
      (memory (unrotCss cfg o nm) o' nm l n dataInit rotBasis reset ancDetectors true) :=
  ((isUnrot_of_params h hw).memory_css ((unrot_numCoords h).params hw) hdx hdz hr hargs o o' rotBasis reset n).gauge

/-- **C32** Same for rot_surface_code_xzzx_pipelined.py. -/
theorem C32_xzzx_pipelined_gauge (h : rotSurfaceCodeRectangle dx dz a = .ok l0) (hw : WithParams l0 l) (hdx : 2 ≤ dx)
    (hdz : 2 ≤ dz) (nm : NoiseModel) (hr : CanRun nm l) (hargs : MemoryArgs cfg nm l dataInit ancDetectors)
    (o o' : SetOrder) (rotBasis reset : Bool) (n : Nat) :
    FixedButGauge cfg l a.label n dataInit rotBasis reset ancDetectors
      (memory (xzzxPipelined cfg o nm) o' nm l n dataInit rotBasis reset ancDetectors true) :=
  ((isRot_of_params h hw).memory_xzzxPipe ((rot_numCoords h).params hw) hdx hdz hr hargs o o' rotBasis reset n).gauge

/-- **C33** Memory experiments of rot_surface_code_css.py with `n` rounds measure the ancillas `n` times and then the data
qubits, in the order of `get_qubits`. -/
theorem C33_rot_css (h : rotSurfaceCodeRectangle dx dz a = .ok l0) (hw : WithParams l0 l) (hdx : 1 ≤ dx) (hdz : 1 ≤ dz)
    (nm : NoiseModel) (hr : CanRun nm l) (hargs : MemoryArgs cfg nm l dataInit ancDetectors) (o o' : SetOrder)
    (rotBasis reset gauge : Bool) (n : Nat) :
    RecordOrder cfg nm l n (memory (rotCss cfg o nm) o' nm l n dataInit rotBasis reset ancDetectors gauge) :=
  (isRot_of_params h hw).record_css ((rot_numCoords h).params hw) hdx hdz hr hargs o o' rotBasis reset gauge n

/-- **C33** Same for rot_surface_code_css_pipelined.py. -/
theorem C33_rot_css_pipelined (h : rotSurfaceCodeRectangle dx dz a = .ok l0) (hw : WithParams l0 l) (hdx : 1 ≤ dx)
    (hdz : 1 ≤ dz) (nm : NoiseModel) (hr : CanRun nm l) (hargs : MemoryArgs cfg nm l dataInit ancDetectors)
    (o o' : SetOrder) (rotBasis reset gauge : Bool) (n : Nat) :
    RecordOrder cfg nm l n (memory (rotCssPipelined cfg o nm) o' nm l n dataInit rotBasis reset ancDetectors gauge) :=
  ((isRot_of_params h hw).memory_cssPipe ((rot_numCoords h).params hw) hdx hdz hr hargs o o' rotBasis reset n).order gauge

/-- **C33** Same for unrot_surface_code_css.py. -/
theorem C33_unrot_css (h : unrotSurfaceCodeRectangle dx dz a = .ok l0) (hw : WithParams l0 l) (hdx : 1 ≤ dx)
    (hdz : 1 ≤ dz) (nm : NoiseModel) (hr : CanRun nm l) (hargs : MemoryArgs cfg nm l dataInit ancDetectors)
    (o o' : SetOrder) (rotBasis reset gauge : Bool) (n : Nat) :
    RecordOrder cfg nm l n (memory (unrotCss cfg o nm) o' nm l n dataInit rotBasis reset ancDetectors gauge) :=
  (isUnrot_of_params h hw).record_css ((unrot_numCoords h).params hw) hdx hdz hr hargs o o' rotBasis reset gauge n

/-- **C33** Same for rot_surface_code_xzzx.py, although its rounds do not measure the stabilizers. -/
theorem C33_xzzx (h : rotSurfaceCodeRectangle dx dz a = .ok l0) (hw : WithParams l0 l) (hdx : 1 ≤ dx)
    (hdz : 1 ≤ dz) (nm : NoiseModel) (hr : CanRun nm l) (hargs : MemoryArgs cfg nm l dataInit ancDetectors)
    (o o' : SetOrder) (rotBasis reset gauge : Bool) (n : Nat) :
    RecordOrder cfg nm l n (memory (xzzx cfg o nm) o' nm l n dataInit rotBasis reset ancDetectors gauge) :=
  (isRot_of_params h hw).record_xzzx ((rot_numCoords h).params hw) hdx hdz hr hargs o o' rotBasis reset gauge n

/-- **C33** Same for rot_surface_code_xzzx_pipelined.py. -/
theorem C33_xzzx_pipelined (h : rotSurfaceCodeRectangle dx dz a = .ok l0) (hw : WithParams l0 l) (hdx : 1 ≤ dx)
    (hdz : 1 ≤ dz) (nm : NoiseModel) (hr : CanRun nm l) (hargs : MemoryArgs cfg nm l dataInit ancDetectors)
    (o o' : SetOrder) (rotBasis reset gauge : Bool) (n : Nat) :
    RecordOrder cfg nm l n (memory (xzzxPipelined cfg o nm) o' nm l n dataInit rotBasis reset ancDetectors gauge) :=
  (isRot_of_params h hw).record_xzzxPipe ((rot_numCoords h).params hw) hdx hdz hr hargs o o' rotBasis reset gauge n

/-- A non-trivial case: 5 rounds on a distance-3 code with the corner data qubit `D1` set to one, which flips one
detector in the first round and the observable. -/
example (o o' : SetOrder) : ∃ l, rotSurfaceCode 3 rotDefault = .ok l ∧
    ∀ s, ∃ c s', memory (rotCss (configFor l .postGate) o (noiselessFor l)) o' (noiselessFor l) l 5 [("D1", 1)] false true
      none false s = (.ok c, s') ∧ ∀ ζ ρ : Nat → ZMod 2,
        (detectors ζ ρ c).length = 44 ∧ (detectors ζ ρ c).count 1 = 1 ∧ observables ζ ρ c = [(0, 1)] := by
  have h1 : rotSurfaceCode 3 rotDefault = .ok (layoutOf (rotSurfaceCode 3 rotDefault)) :=
    ok_layoutOf (by decide +kernel)
  have h2 := canRun_noiseless (l := layoutOf (rotSurfaceCode 3 rotDefault)) (by decide +kernel)
  obtain ⟨anc, stabs, log, k1, k2, k3, k4⟩ := C32_rot_css h1 .refl (by decide) (by decide) _ h2
    (memoryArgs_noiseless (frame := .postGate) (dataInit := [("D1", 1)]) (ancDetectors := none) (by decide +kernel)) o o'
    false true 5
  have e1 : (layoutOf (rotSurfaceCode 3 rotDefault)).getQubits [("role", .str "anc")] =
    .ok ["X1", "X2", "X3", "X4", "Z1", "Z2", "Z3", "Z4"] := by decide +kernel
  have e2 : (layoutOf (rotSurfaceCode 3 rotDefault)).getQubits [("role", .str "anc"), ("stab_type", .str "z_type")] =
    .ok ["Z1", "Z2", "Z3", "Z4"] := by decide +kernel
  have e3 : (layoutOf (rotSurfaceCode 3 rotDefault)).logZ.get? "L0" = some ["D1", "D2", "D3"] := by decide +kernel
  cases e1.symm.trans k1
  cases e2.symm.trans k2
  cases e3.symm.trans k3
  refine ⟨_, h1, fun s => ?_⟩
  obtain ⟨c, s', k5, k6⟩ := k4 s
  refine ⟨c, s', k5, fun ζ ρ => ?_⟩
  rw [(k6 ζ ρ).1, (k6 ζ ρ).2]
  decide +kernel

example (o o' : SetOrder) (rotBasis reset : Bool) (n : Nat) : ∃ l, unrotSurfaceCode 2 unrotDefault = .ok l ∧
    FixedValues (configFor l .gateIndependent) l "L0" n [("D1", 1)] rotBasis reset none
      (memory (unrotCss (configFor l .gateIndependent) o (noiselessFor l)) o' (noiselessFor l) l n [("D1", 1)] rotBasis
        reset none false) ∧
    RecordOrder (configFor l .gateIndependent) (noiselessFor l) l n
      (memory (unrotCss (configFor l .gateIndependent) o (noiselessFor l)) o' (noiselessFor l) l n [("D1", 1)] rotBasis
        reset none false) := by
  have h1 : unrotSurfaceCode 2 unrotDefault = .ok (layoutOf (unrotSurfaceCode 2 unrotDefault)) :=
    ok_layoutOf (by decide +kernel)
  have h2 := canRun_noiseless (l := layoutOf (unrotSurfaceCode 2 unrotDefault)) (by decide +kernel)
  have h3 := memoryArgs_noiseless (l := layoutOf (unrotSurfaceCode 2 unrotDefault)) (frame := .gateIndependent)
    (dataInit := [("D1", 1)]) (ancDetectors := none) (by decide +kernel)
  exact ⟨_, h1, C32_unrot_css h1 .refl (by decide) (by decide) _ h2 h3 o o' rotBasis reset n,
    C33_unrot_css h1 .refl (by decide) (by decide) _ h2 h3 o o' rotBasis reset false n⟩

/-- Pipelined rounds, with detectors for one ancilla only. -/
example (o o' : SetOrder) (rotBasis reset : Bool) (n : Nat) : ∃ l, rotSurfaceCodeRectangle 2 3 rotDefault = .ok l ∧
    FixedValues (configFor l .preGate) l "L0" n [("D1", 1), ("D2", 0)] rotBasis reset (some ["X1"])
      (memory (rotCssPipelined (configFor l .preGate) o (noiselessFor l)) o' (noiselessFor l) l n
        [("D1", 1), ("D2", 0)] rotBasis reset (some ["X1"]) false) ∧
    FixedValues (configFor l .preGate) l "L0" n [("D1", 1), ("D2", 0)] rotBasis reset (some ["X1"])
      (memory (xzzxPipelined (configFor l .preGate) o (noiselessFor l)) o' (noiselessFor l) l n
        [("D1", 1), ("D2", 0)] rotBasis reset (some ["X1"]) false) ∧
    RecordOrder (configFor l .preGate) (noiselessFor l) l n
      (memory (xzzxPipelined (configFor l .preGate) o (noiselessFor l)) o' (noiselessFor l) l n
        [("D1", 1), ("D2", 0)] rotBasis reset (some ["X1"]) false) := by
  have h1 : rotSurfaceCodeRectangle 2 3 rotDefault = .ok (layoutOf (rotSurfaceCodeRectangle 2 3 rotDefault)) :=
    ok_layoutOf (by decide +kernel)
  have h2 := canRun_noiseless (l := layoutOf (rotSurfaceCodeRectangle 2 3 rotDefault)) (by decide +kernel)
  have h3 := memoryArgs_noiseless (l := layoutOf (rotSurfaceCodeRectangle 2 3 rotDefault)) (frame := .preGate)
    (dataInit := [("D1", 1), ("D2", 0)]) (ancDetectors := some ["X1"]) (by decide +kernel)
  exact ⟨_, h1, C32_rot_css_pipelined h1 .refl (by decide) (by decide) _ h2 h3 o o' rotBasis reset n,
    C32_xzzx_pipelined h1 .refl (by decide) (by decide) _ h2 h3 o o' rotBasis reset n,
    C33_xzzx_pipelined h1 .refl (by decide) (by decide) _ h2 h3 o o' rotBasis reset false n⟩

/-- With gauge detectors, the first-round detectors of the Z ancillas and all later detectors are fixed for an experiment in
the Z basis. -/
example (o o' : SetOrder) (reset : Bool) (n : Nat) : ∃ l, rotSurfaceCode 3 rotDefault = .ok l ∧
    ∀ s, ∃ c s', memory (rotCss (configFor l .postGate) o (noiselessFor l)) o' (noiselessFor l) l n [("D1", 1)] false reset
      none true s = (.ok c, s') ∧ ∀ i, 4 ≤ i → ∀ ζ ρ ζ' ρ' : Nat → ZMod 2,
        (detectors ζ ρ c)[i]? = (detectors ζ' ρ' c)[i]? := by
  have h1 : rotSurfaceCode 3 rotDefault = .ok (layoutOf (rotSurfaceCode 3 rotDefault)) :=
    ok_layoutOf (by decide +kernel)
  have h2 := canRun_noiseless (l := layoutOf (rotSurfaceCode 3 rotDefault)) (by decide +kernel)
  obtain ⟨anc, stabs, log, k1, k2, k3, k4⟩ := C32_rot_css_gauge h1 .refl (by decide) (by decide) _ h2
    (memoryArgs_noiseless (frame := .postGate) (dataInit := [("D1", 1)]) (ancDetectors := none) (by decide +kernel)) o o'
    false reset n
  have e0 : (configFor (layoutOf (rotSurfaceCode 3 rotDefault)) .postGate).anc =
    ["X1", "X2", "X3", "X4", "Z1", "Z2", "Z3", "Z4"] := by decide +kernel
  have e2 : (layoutOf (rotSurfaceCode 3 rotDefault)).getQubits [("role", .str "anc"), ("stab_type", .str "z_type")] =
    .ok ["Z1", "Z2", "Z3", "Z4"] := by decide +kernel
  cases e2.symm.trans k2
  refine ⟨_, h1, fun s => ?_⟩
  obtain ⟨c, s', k5, k6⟩ := k4 s
  refine ⟨c, s', k5, fun i hi ζ ρ ζ' ρ' => ?_⟩
  have : 0 < n → ∀ a, (configFor (layoutOf (rotSurfaceCode 3 rotDefault)) .postGate).anc[i]? = some a →
      a ∈ (none : Option (List String)).getD anc → a ∈ anc → a ∈ ["Z1", "Z2", "Z3", "Z4"] := by
    intro _ a ha _ _
    rw [e0] at ha
    obtain ⟨j, rfl⟩ : ∃ j, i = j + 4 := ⟨i - 4, by omega⟩
    exact List.mem_of_getElem? ha
  rw [(k6 ζ ρ).1.2 i this, (k6 ζ' ρ').1.2 i this]

example (o o' : SetOrder) (rotBasis reset gauge : Bool) (n : Nat) : ∃ l, rotSurfaceCode 3 rotDefault = .ok l ∧
    RecordOrder (configFor l .postGate) (noiselessFor l) l n
      (memory (xzzx (configFor l .postGate) o (noiselessFor l)) o' (noiselessFor l) l n [("D1", 1)] rotBasis reset none
        gauge) := by
  have h1 : rotSurfaceCode 3 rotDefault = .ok (layoutOf (rotSurfaceCode 3 rotDefault)) :=
    ok_layoutOf (by decide +kernel)
  have h2 := canRun_noiseless (l := layoutOf (rotSurfaceCode 3 rotDefault)) (by decide +kernel)
  exact ⟨_, h1, C33_xzzx h1 .refl (by decide) (by decide) _ h2
    (memoryArgs_noiseless (frame := .postGate) (dataInit := [("D1", 1)]) (ancDetectors := none) (by decide +kernel)) o o'
    rotBasis reset gauge n⟩

/-- **C32** The gauge detectors do not have a fixed value in general. -/
theorem C32_gauge_random : ∃ l c s s', rotSurfaceCode 2 rotDefault = .ok l ∧ CanRun (noiselessFor l) l ∧
    MemoryArgs (configFor l .postGate) (noiselessFor l) l [] none ∧
    memory (rotCss (configFor l .postGate) .insertion (noiselessFor l)) .insertion (noiselessFor l) l 1 [] false true none
      true s = (.ok c, s') ∧ detectors 0 0 c ≠ detectors 0 (fun k => if k = 0 then 1 else 0) c := by
  refine ⟨_, circuitOf (memory (rotCss (configFor (layoutOf (rotSurfaceCode 2 rotDefault)) .postGate) .insertion
      (noiselessFor (layoutOf (rotSurfaceCode 2 rotDefault)))) .insertion
      (noiselessFor (layoutOf (rotSurfaceCode 2 rotDefault))) (layoutOf (rotSurfaceCode 2 rotDefault)) 1 [] false true
      none true) (MeasState.fresh (noiselessFor (layoutOf (rotSurfaceCode 2 rotDefault))).inds,
        Detectors.State.fresh _), (MeasState.fresh (noiselessFor (layoutOf (rotSurfaceCode 2 rotDefault))).inds,
        Detectors.State.fresh _), _, ok_layoutOf (by decide +kernel), canRun_noiseless (by decide +kernel),
      memoryArgs_noiseless (by decide +kernel), eq_circuitOf (by decide +kernel), ?_⟩
  decide +kernel

/-- **C32** Memory experiments of rot_surface_code_xzzx.py do not have fixed detectors, because their rounds do not measure
the stabilizers (`C31_xzzx_wrong`): one round on the code of distance 2 has a detector that depends on the randomness. -/
theorem C32_xzzx_wrong : ∃ l c s s', rotSurfaceCode 2 rotDefault = .ok l ∧ CanRun (noiselessFor l) l ∧
    MemoryArgs (configFor l .postGate) (noiselessFor l) l [] none ∧
    memory (xzzx (configFor l .postGate) .insertion (noiselessFor l)) .insertion (noiselessFor l) l 1 [] false true none
      false s = (.ok c, s') ∧ detectors 0 0 c ≠ detectors 0 1 c := by
  refine ⟨_, circuitOf (memory (xzzx (configFor (layoutOf (rotSurfaceCode 2 rotDefault)) .postGate) .insertion
      (noiselessFor (layoutOf (rotSurfaceCode 2 rotDefault)))) .insertion
      (noiselessFor (layoutOf (rotSurfaceCode 2 rotDefault))) (layoutOf (rotSurfaceCode 2 rotDefault)) 1 [] false true
      none false) (MeasState.fresh (noiselessFor (layoutOf (rotSurfaceCode 2 rotDefault))).inds,
        Detectors.State.fresh _), (MeasState.fresh (noiselessFor (layoutOf (rotSurfaceCode 2 rotDefault))).inds,
        Detectors.State.fresh _), _, ok_layoutOf (by decide +kernel), canRun_noiseless (by decide +kernel),
      memoryArgs_noiseless (by decide +kernel), eq_circuitOf (by decide +kernel), by decide +kernel⟩

end SurfaceSim.Props
