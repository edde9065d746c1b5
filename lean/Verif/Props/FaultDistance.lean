/-
C57: memory experiments have the distance of the code at the circuit level.
-/
import Verif.Lemmas.FaultsGoogle
import Verif.Props.Memory

namespace SurfaceSim.Props
open SurfaceSim Spec NoiseModel Blocks Experiments LayoutLib

variable {cfg : Detectors.Config} {l0 l : Layout} {a : Args} {dx dz : Int} {dataInit : Dict String Int}
  {ancDetectors : Option (List String)}

theorem faultDistance_of {d : Nat} {e : PyM (Sim cfg) Circuit}
    (h : ∀ s, ∃ c s', e s = (.ok c, s') ∧ Detects d c ∧ Unseen d c) : FaultDistance cfg d e := fun s => by
  obtain ⟨c, s', h1, h2, h3⟩ := h s
  exact ⟨c, s', h1, h2, h3.not_detects⟩

/-- **C57** Memory experiments of rot_surface_code_css.py: as long as fewer faults happen than the code has rows (for the Z
basis) or columns (for the X basis), the faults change a detector or they do not change the observable.  A fault is any Pauli
error on one qubit at any time, any Pauli error on both qubits of a two-qubit gate after the gate, or a wrong measurement
outcome.  As many faults as rows or columns can go unnoticed, so that the number is exact. -/
theorem C57_rot_css (h : rotSurfaceCodeRectangle dx dz a = .ok l0) (hw : WithParams l0 l) (hdx : 1 ≤ dx) (hdz : 2 ≤ dz)
    (nm : NoiseModel) (hr : CanRun nm l) (hargs : MemoryArgs cfg nm l dataInit ancDetectors) (o o' : SetOrder)
    (rotBasis reset gauge : Bool) (hsel : SelectsBasis l rotBasis ancDetectors) (n : Nat) :
    FaultDistance cfg (if rotBasis then dz else dx).toNat
      (memory (rotCss cfg o nm) o' nm l n dataInit rotBasis reset ancDetectors gauge) :=
  faultDistance_of <| (isRot_of_params h hw).detects_css ((rot_numCoords h).params hw) hdx hdz hr hargs o o' rotBasis reset gauge hsel n

/-- The distance-3 code: any two faults in any number of rounds are seen or harmless. -/
example (o o' : SetOrder) (rotBasis reset gauge : Bool) (n : Nat) : ∃ l, rotSurfaceCode 3 rotDefault = .ok l ∧
    FaultDistance (configFor l .postGate) 3
      (memory (rotCss (configFor l .postGate) o (noiselessFor l)) o' (noiselessFor l) l n [("D1", 1)] rotBasis reset none gauge) := by
  have h1 : rotSurfaceCode 3 rotDefault = .ok (layoutOf (rotSurfaceCode 3 rotDefault)) :=
    ok_layoutOf (by decide +kernel)
  refine ⟨_, h1, ?_⟩
  have := C57_rot_css h1 .refl (by decide) (by decide) _ (canRun_noiseless (by decide +kernel))
    (memoryArgs_noiseless (frame := .postGate) (dataInit := [("D1", 1)]) (ancDetectors := none) (by decide +kernel)) o o'
    rotBasis reset gauge (fun _ h => nomatch h) n
  cases rotBasis <;> exact this

/-- A rectangle with detectors for the Z stabilizers only. -/
example (o o' : SetOrder) (reset gauge : Bool) (n : Nat) : ∃ l, rotSurfaceCodeRectangle 2 3 rotDefault = .ok l ∧
    FaultDistance (configFor l .preGate) 2
      (memory (rotCss (configFor l .preGate) o (noiselessFor l)) o' (noiselessFor l) l n [] false reset
        (some ["Z1", "Z2"]) gauge) := by
  have h1 : rotSurfaceCodeRectangle 2 3 rotDefault = .ok (layoutOf (rotSurfaceCodeRectangle 2 3 rotDefault)) :=
    ok_layoutOf (by decide +kernel)
  refine ⟨_, h1, ?_⟩
  refine C57_rot_css h1 .refl (by decide) (by decide) _ (canRun_noiseless (by decide +kernel))
    (memoryArgs_noiseless (frame := .preGate) (dataInit := []) (ancDetectors := some ["Z1", "Z2"]) (by decide +kernel)) o o'
    false reset gauge ?_ n
  intro sel hsel stabs hst x hx
  have e : (layoutOf (rotSurfaceCodeRectangle 2 3 rotDefault)).getQubits [("role", .str "anc"), ("stab_type", .str "z_type")] =
    .ok ["Z1", "Z2"] := by decide +kernel
  cases hsel
  cases e.symm.trans hst
  exact hx

/-- **C57** Same for rot_surface_code_css_pipelined.py. -/
theorem C57_rot_css_pipelined (h : rotSurfaceCodeRectangle dx dz a = .ok l0) (hw : WithParams l0 l) (hdx : 1 ≤ dx)
    (hdz : 1 ≤ dz) (nm : NoiseModel) (hr : CanRun nm l) (hargs : MemoryArgs cfg nm l dataInit ancDetectors)
    (o o' : SetOrder) (rotBasis reset gauge : Bool) (hsel : SelectsBasis l rotBasis ancDetectors) (n : Nat) :
    FaultDistance cfg (if rotBasis then dz else dx).toNat
      (memory (rotCssPipelined cfg o nm) o' nm l n dataInit rotBasis reset ancDetectors gauge) :=
  faultDistance_of <| (isRot_of_params h hw).detects_cssPipe ((rot_numCoords h).params hw) hdx hdz hr hargs o o' rotBasis reset gauge hsel n

example (o o' : SetOrder) (rotBasis reset gauge : Bool) (n : Nat) : ∃ l, rotSurfaceCode 3 rotDefault = .ok l ∧
    FaultDistance (configFor l .postGate) 3
      (memory (rotCssPipelined (configFor l .postGate) o (noiselessFor l)) o' (noiselessFor l) l n [("D1", 1)] rotBasis reset none
        gauge) := by
  have h1 : rotSurfaceCode 3 rotDefault = .ok (layoutOf (rotSurfaceCode 3 rotDefault)) :=
    ok_layoutOf (by decide +kernel)
  refine ⟨_, h1, ?_⟩
  have := C57_rot_css_pipelined h1 .refl (by decide) (by decide) _ (canRun_noiseless (by decide +kernel))
    (memoryArgs_noiseless (frame := .postGate) (dataInit := [("D1", 1)]) (ancDetectors := none) (by decide +kernel)) o o'
    rotBasis reset gauge (fun _ h => nomatch h) n
  cases rotBasis <;> exact this

/-- **C57** Same for rot_surface_code_xzzx_pipelined.py. -/
theorem C57_xzzx_pipelined (h : rotSurfaceCodeRectangle dx dz a = .ok l0) (hw : WithParams l0 l) (hdx : 2 ≤ dx)
    (hdz : 2 ≤ dz) (nm : NoiseModel) (hr : CanRun nm l) (hargs : MemoryArgs cfg nm l dataInit ancDetectors)
    (o o' : SetOrder) (rotBasis reset gauge : Bool) (hsel : SelectsBasis l rotBasis ancDetectors) (n : Nat) :
    FaultDistance cfg (if rotBasis then dz else dx).toNat
      (memory (xzzxPipelined cfg o nm) o' nm l n dataInit rotBasis reset ancDetectors gauge) :=
  faultDistance_of <| (isRot_of_params h hw).detects_xzzxPipe ((rot_numCoords h).params hw) hdx hdz hr hargs o o' rotBasis reset gauge hsel n

example (o o' : SetOrder) (rotBasis reset gauge : Bool) (n : Nat) : ∃ l, rotSurfaceCode 3 rotDefault = .ok l ∧
    FaultDistance (configFor l .postGate) 3
      (memory (xzzxPipelined (configFor l .postGate) o (noiselessFor l)) o' (noiselessFor l) l n [("D1", 1)] rotBasis reset none
        gauge) := by
  have h1 : rotSurfaceCode 3 rotDefault = .ok (layoutOf (rotSurfaceCode 3 rotDefault)) :=
    ok_layoutOf (by decide +kernel)
  refine ⟨_, h1, ?_⟩
  have := C57_xzzx_pipelined h1 .refl (by decide) (by decide) _ (canRun_noiseless (by decide +kernel))
    (memoryArgs_noiseless (frame := .postGate) (dataInit := [("D1", 1)]) (ancDetectors := none) (by decide +kernel)) o o'
    rotBasis reset gauge (fun _ h => nomatch h) n
  cases rotBasis <;> exact this

/-- **C57** Same for rot_surface_code_xzzx_google.py: the gates X inside the rounds and the measurement of the data qubits
together with the last ancillas change nothing. -/
theorem C57_google (h : rotSurfaceCodeRectangle dx dz a = .ok l0) (hw : WithParams l0 l) (hdx : 2 ≤ dx)
    (hdz : 2 ≤ dz) (nm : NoiseModel) (hr : CanRun nm l) (hargs : MemoryArgs cfg nm l dataInit ancDetectors)
    (o : SetOrder) (rotBasis gauge : Bool) (hsel : SelectsBasis l rotBasis ancDetectors) (n : Nat) :
    FaultDistance cfg (if rotBasis then dz else dx).toNat
      (googleMemory o nm l (n + 1 : Nat) dataInit rotBasis ancDetectors gauge) :=
  faultDistance_of <| (isRot_of_params h hw).detects_google ((rot_numCoords h).params hw) hdx hdz hr hargs o rotBasis gauge hsel n

example (o : SetOrder) (rotBasis gauge : Bool) (n : Nat) : ∃ l, rotSurfaceCode 3 rotDefault = .ok l ∧
    FaultDistance (configFor l .postGate) 3
      (googleMemory o (noiselessFor l) l (n + 1 : Nat) [("D1", 1)] rotBasis none gauge) := by
  have h1 : rotSurfaceCode 3 rotDefault = .ok (layoutOf (rotSurfaceCode 3 rotDefault)) :=
    ok_layoutOf (by decide +kernel)
  refine ⟨_, h1, ?_⟩
  have := C57_google h1 .refl (by decide) (by decide) _ (canRun_noiseless (by decide +kernel))
    (memoryArgs_noiseless (frame := .postGate) (dataInit := [("D1", 1)]) (ancDetectors := none) (by decide +kernel)) o
    rotBasis gauge (fun _ h => nomatch h) n
  cases rotBasis <;> exact this

/-- **C57** Same for unrot_surface_code_css.py. -/
theorem C57_unrot_css (h : unrotSurfaceCodeRectangle dx dz a = .ok l0) (hw : WithParams l0 l) (hdx : 1 ≤ dx)
    (hdz : 2 ≤ dz) (nm : NoiseModel) (hr : CanRun nm l) (hargs : MemoryArgs cfg nm l dataInit ancDetectors)
    (o o' : SetOrder) (rotBasis reset gauge : Bool) (hsel : SelectsBasis l rotBasis ancDetectors) (n : Nat) :
    FaultDistance cfg (if rotBasis then dz else dx).toNat
      (memory (unrotCss cfg o nm) o' nm l n dataInit rotBasis reset ancDetectors gauge) :=
  faultDistance_of <| (isUnrot_of_params h hw).detects_css ((unrot_numCoords h).params hw) hdx hdz hr hargs o o' rotBasis reset gauge hsel n

example (o o' : SetOrder) (reset gauge : Bool) (n : Nat) : ∃ l, unrotSurfaceCodeRectangle 2 3 unrotDefault = .ok l ∧
    FaultDistance (configFor l .postGate) 3
      (memory (unrotCss (configFor l .postGate) o (noiselessFor l)) o' (noiselessFor l) l n [] true reset none gauge) := by
  have h1 : unrotSurfaceCodeRectangle 2 3 unrotDefault = .ok (layoutOf (unrotSurfaceCodeRectangle 2 3 unrotDefault)) :=
    ok_layoutOf (by decide +kernel)
  exact ⟨_, h1, C57_unrot_css h1 .refl (by decide) (by decide) _ (canRun_noiseless (by decide +kernel))
    (memoryArgs_noiseless (frame := .postGate) (dataInit := []) (ancDetectors := none) (by decide +kernel)) o o'
    true reset gauge (fun _ h => nomatch h) n⟩

end SurfaceSim.Props
