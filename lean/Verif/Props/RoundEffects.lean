/-
The QEC rounds keep the encoded state (C30) and notice single data errors (C44).
-/
import Verif.Lemmas.CommuteGrid
import Verif.Lemmas.Witness

namespace SurfaceSim.Props
open Spec NoiseModel Blocks LayoutLib

variable {l l0 : Layout} {a : Args} {dx dz : Int}

/-- **C30** The CSS round on a rotated surface code keeps all syndromes and the logical operators of the layout. -/
theorem C30_rot_css (h : rotSurfaceCodeRectangle dx dz a = .ok l0) (hw : WithParams l0 l) (hdx : 1 ≤ dx) (hdz : 2 ≤ dz)
    (nm : NoiseModel) (hr : CanRun nm l) (o : SetOrder) (reset : Bool) :
    ∃ xs, l.getQubits [("role", .str "anc"), ("stab_type", .str "x_type")] = .ok xs ∧
      LeavesCode nm l a.label (sumGen (cssIter "rotated_surface_code" o nm l reset)) (fun x _ => decide (x ∈ xs))
        (fun _ => true) (fun _ => false) := by
  have hi := isRot_of_params h hw
  refine ⟨_, hi.grid.getQubits_x, ?_⟩
  exact RoundMeasures.leaves hi.grid (hi.css hdz hr o reset) (typed_css hi.grid) (hi.codeGrid hdx (by omega))
    (by simp [hi.logX, Dict.get?]) (by simp [hi.logZ, Dict.get?])

/-- **C30** Same for the pipelined CSS round. -/
theorem C30_rot_css_pipelined (h : rotSurfaceCodeRectangle dx dz a = .ok l0) (hw : WithParams l0 l) (hdx : 1 ≤ dx)
    (hdz : 1 ≤ dz) (nm : NoiseModel) (hr : CanRun nm l) (o : SetOrder) (reset : Bool) :
    ∃ xs, l.getQubits [("role", .str "anc"), ("stab_type", .str "x_type")] = .ok xs ∧
      LeavesCode nm l a.label (sumGen (cssPipeIter o nm l reset)) (fun x _ => decide (x ∈ xs))
        (fun _ => true) (fun _ => false) := by
  have hi := isRot_of_params h hw
  refine ⟨_, hi.grid.getQubits_x, ?_⟩
  exact RoundMeasures.leaves hi.grid (hi.cssPipe hr o reset) (typed_css hi.grid) (hi.codeGrid hdx hdz)
    (by simp [hi.logX, Dict.get?]) (by simp [hi.logZ, Dict.get?])

/-- **C30** Same for the CSS round on an unrotated surface code. -/
theorem C30_unrot_css (h : unrotSurfaceCodeRectangle dx dz a = .ok l0) (hw : WithParams l0 l) (hdx : 1 ≤ dx)
    (hdz : 2 ≤ dz) (nm : NoiseModel) (hr : CanRun nm l) (o : SetOrder) (reset : Bool) :
    ∃ xs, l.getQubits [("role", .str "anc"), ("stab_type", .str "x_type")] = .ok xs ∧
      LeavesCode nm l a.label (sumGen (cssIter "unrotated_surface_code" o nm l reset)) (fun x _ => decide (x ∈ xs))
        (fun _ => true) (fun _ => false) := by
  have hi := isUnrot_of_params h hw
  refine ⟨_, hi.grid.getQubits_x, ?_⟩
  exact RoundMeasures.leaves hi.grid (hi.css hdz hr o reset) (typed_css hi.grid) (hi.codeGrid hdx (by omega))
    (by simp [hi.logX, Dict.get?]) (by simp [hi.logZ, Dict.get?])

/-- **C30** Same for the pipelined XZZX round, whose stabilizers and logical operators have X and Z exchanged at the
rotated data qubits. -/
theorem C30_xzzx_pipelined (h : rotSurfaceCodeRectangle dx dz a = .ok l0) (hw : WithParams l0 l) (hdx : 2 ≤ dx)
    (hdz : 2 ≤ dz) (nm : NoiseModel) (hr : CanRun nm l) (o : SetOrder) (reset : Bool) :
    ∃ zs, l.getQubits [("role", .str "anc"), ("stab_type", .str "z_type")] = .ok zs ∧
      LeavesCode nm l a.label (sumGen (xzzxPipeIter o nm l reset)) (xzzxType l)
        (fun d => !xzzxRotated l zs d) (xzzxRotated l zs) := by
  have hi := isRot_of_params h hw
  refine ⟨_, hi.grid.getQubits_z, ?_⟩
  exact RoundMeasures.leaves hi.grid (hi.xzzxPipe hdx hdz hr o reset) (hi.typed_xzzx hdx hdz)
    (hi.codeGrid (by omega) (by omega)) (by simp [hi.logX, Dict.get?]) (by simp [hi.logZ, Dict.get?])

/-- A non-trivial case: distance 3, where the logical operators have three qubits. -/
example (o : SetOrder) (reset : Bool) : ∃ (l : Layout) (xs zs : List String),
    rotSurfaceCode 3 rotDefault = .ok l ∧ CanRun (noiselessFor l) l ∧
    l.logX.get? rotDefault.label = some ["D1", "D4", "D7"] ∧ l.logZ.get? rotDefault.label = some ["D1", "D2", "D3"] ∧
    l.getQubits [("role", .str "anc"), ("stab_type", .str "z_type")] = .ok zs ∧
    xzzxRotated l zs "D1" = false ∧ xzzxRotated l zs "D2" = true ∧
    LeavesCode (noiselessFor l) l rotDefault.label
      (sumGen (cssIter "rotated_surface_code" o (noiselessFor l) l reset)) (fun x _ => decide (x ∈ xs))
      (fun _ => true) (fun _ => false) ∧
    LeavesCode (noiselessFor l) l rotDefault.label (sumGen (xzzxPipeIter o (noiselessFor l) l reset)) (xzzxType l)
      (fun d => !xzzxRotated l zs d) (xzzxRotated l zs) := by
  have h1 : rotSurfaceCode 3 rotDefault = .ok (layoutOf (rotSurfaceCode 3 rotDefault)) :=
    ok_layoutOf (by decide +kernel)
  have h2 := canRun_noiseless (l := layoutOf (rotSurfaceCode 3 rotDefault)) (by decide +kernel)
  obtain ⟨xs, -, h4⟩ := C30_rot_css h1 .refl (by decide) (by decide) _ h2 o reset
  obtain ⟨zs, h5, h6⟩ := C30_xzzx_pipelined h1 .refl (by decide) (by decide) _ h2 o reset
  have h7 : (layoutOf (rotSurfaceCode 3 rotDefault)).getQubits [("role", .str "anc"), ("stab_type", .str "z_type")] =
    .ok ["Z1", "Z2", "Z3", "Z4"] := by decide +kernel
  have h8 : zs = ["Z1", "Z2", "Z3", "Z4"] := by rw [h5] at h7; simpa using h7
  subst h8
  exact ⟨_, xs, _, h1, h2, by decide +kernel, by decide +kernel, h5, by decide +kernel, by decide +kernel, h4, h6⟩

/-- **C44** With distances of at least two, every X, Y or Z error on one data qubit changes the outcomes of the CSS
round. -/
theorem C44_rot_css (h : rotSurfaceCodeRectangle dx dz a = .ok l0) (hw : WithParams l0 l) (hdx : 2 ≤ dx) (hdz : 2 ≤ dz)
    (nm : NoiseModel) (hr : CanRun nm l) (o : SetOrder) (reset : Bool) :
    DetectsErrors nm l (sumGen (cssIter "rotated_surface_code" o nm l reset)) := by
  have hi := isRot_of_params h hw
  exact RoundMeasures.detects hi.grid hr (hi.css hdz hr o reset) (exists_typed hi.grid (typed_css hi.grid)
    (hi.around hdx hdz (by simp)) (hi.around hdx hdz (by simp)))

theorem C44_rot_css_pipelined (h : rotSurfaceCodeRectangle dx dz a = .ok l0) (hw : WithParams l0 l) (hdx : 2 ≤ dx)
    (hdz : 2 ≤ dz) (nm : NoiseModel) (hr : CanRun nm l) (o : SetOrder) (reset : Bool) :
    DetectsErrors nm l (sumGen (cssPipeIter o nm l reset)) := by
  have hi := isRot_of_params h hw
  exact RoundMeasures.detects hi.grid hr (hi.cssPipe hr o reset) (exists_typed hi.grid (typed_css hi.grid)
    (hi.around hdx hdz (by simp)) (hi.around hdx hdz (by simp)))

theorem C44_xzzx_pipelined (h : rotSurfaceCodeRectangle dx dz a = .ok l0) (hw : WithParams l0 l) (hdx : 2 ≤ dx)
    (hdz : 2 ≤ dz) (nm : NoiseModel) (hr : CanRun nm l) (o : SetOrder) (reset : Bool) :
    DetectsErrors nm l (sumGen (xzzxPipeIter o nm l reset)) := by
  have hi := isRot_of_params h hw
  exact RoundMeasures.detects hi.grid hr (hi.xzzxPipe hdx hdz hr o reset) (exists_typed hi.grid
    (hi.typed_xzzx hdx hdz) (hi.around hdx hdz (by simp)) (hi.around hdx hdz (by simp)))

theorem C44_unrot_css (h : unrotSurfaceCodeRectangle dx dz a = .ok l0) (hw : WithParams l0 l) (hdx : 2 ≤ dx)
    (hdz : 2 ≤ dz) (nm : NoiseModel) (hr : CanRun nm l) (o : SetOrder) (reset : Bool) :
    DetectsErrors nm l (sumGen (cssIter "unrotated_surface_code" o nm l reset)) := by
  have hi := isUnrot_of_params h hw
  exact RoundMeasures.detects hi.grid hr (hi.css hdz hr o reset) (exists_typed hi.grid (typed_css hi.grid)
    (hi.around hdx hdz (by simp)) (hi.around hdx hdz (by simp)))

example (o : SetOrder) (reset : Bool) : ∃ l, rotSurfaceCode 2 rotDefault = .ok l ∧ CanRun (noiselessFor l) l ∧
    l.getQubits [("role", .str "data")] = .ok ["D1", "D2", "D3", "D4"] ∧
    DetectsErrors (noiselessFor l) l (sumGen (cssIter "rotated_surface_code" o (noiselessFor l) l reset)) := by
  have h1 : rotSurfaceCode 2 rotDefault = .ok (layoutOf (rotSurfaceCode 2 rotDefault)) :=
    ok_layoutOf (by decide +kernel)
  have h2 := canRun_noiseless (l := layoutOf (rotSurfaceCode 2 rotDefault)) (by decide +kernel)
  exact ⟨_, h1, h2, by decide +kernel, C44_rot_css h1 .refl (by decide) (by decide) _ h2 o reset⟩

end SurfaceSim.Props
