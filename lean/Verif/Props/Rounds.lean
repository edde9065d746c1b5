/-
The QEC rounds measure the stabilizers (C29, C31).
-/
import Verif.Lemmas.RoundGrid
import Verif.Lemmas.Witness

namespace SurfaceSim.Props
open Spec NoiseModel Blocks LayoutLib

variable {l l0 : Layout} {a : Args} {dx dz : Int}

/-- **C29** The QEC round of rot_surface_code_css.py on a rotated surface code with `distance_z ≥ 2` measures the
stabilizers of the layout: every ancilla outcome is the commutation of the frame with the X (Z) operator on the
neighbours of the ancilla, for every frame and all random outcomes. -/
theorem C29_rot_css (h : rotSurfaceCodeRectangle dx dz a = .ok l0) (hw : WithParams l0 l) (hdz : 2 ≤ dz)
    (nm : NoiseModel) (hr : CanRun nm l) (o : SetOrder) (reset : Bool) :
    ∃ xs, l.getQubits [("role", .str "anc"), ("stab_type", .str "x_type")] = .ok xs ∧
      RoundMeasures nm l (sumGen (cssIter "rotated_surface_code" o nm l reset)) (fun x _ => decide (x ∈ xs)) reset :=
  ⟨_, (isRot_of_params h hw).grid.getQubits_x, (isRot_of_params h hw).css hdz hr o reset⟩

/-- **C29** Same for rot_surface_code_css_pipelined.py, for all distances. -/
theorem C29_rot_css_pipelined (h : rotSurfaceCodeRectangle dx dz a = .ok l0) (hw : WithParams l0 l)
    (nm : NoiseModel) (hr : CanRun nm l) (o : SetOrder) (reset : Bool) :
    ∃ xs, l.getQubits [("role", .str "anc"), ("stab_type", .str "x_type")] = .ok xs ∧
      RoundMeasures nm l (sumGen (cssPipeIter o nm l reset)) (fun x _ => decide (x ∈ xs)) reset :=
  ⟨_, (isRot_of_params h hw).grid.getQubits_x, (isRot_of_params h hw).cssPipe hr o reset⟩

/-- **C29** Same for unrot_surface_code_css.py. -/
theorem C29_unrot_css (h : unrotSurfaceCodeRectangle dx dz a = .ok l0) (hw : WithParams l0 l) (hdz : 2 ≤ dz)
    (nm : NoiseModel) (hr : CanRun nm l) (o : SetOrder) (reset : Bool) :
    ∃ xs, l.getQubits [("role", .str "anc"), ("stab_type", .str "x_type")] = .ok xs ∧
      RoundMeasures nm l (sumGen (cssIter "unrotated_surface_code" o nm l reset)) (fun x _ => decide (x ∈ xs)) reset :=
  ⟨_, (isUnrot_of_params h hw).grid.getQubits_x, (isUnrot_of_params h hw).css hdz hr o reset⟩

/-- A non-trivial case: a round on a distance-3 layout with the noiseless model. -/
example (o : SetOrder) (reset : Bool) : ∃ l xs,
    rotSurfaceCode 3 rotDefault = .ok l ∧ CanRun (noiselessFor l) l ∧
    l.getQubits [("role", .str "anc"), ("stab_type", .str "x_type")] = .ok xs ∧ xs = ["X1", "X2", "X3", "X4"] ∧
    RoundMeasures (noiselessFor l) l (sumGen (cssIter "rotated_surface_code" o (noiselessFor l) l reset))
      (fun x _ => decide (x ∈ xs)) reset ∧
    RoundMeasures (noiselessFor l) l (sumGen (cssPipeIter o (noiselessFor l) l reset))
      (fun x _ => decide (x ∈ xs)) reset := by
  have h1 : rotSurfaceCode 3 rotDefault = .ok (layoutOf (rotSurfaceCode 3 rotDefault)) :=
    ok_layoutOf (by decide +kernel)
  have h2 := canRun_noiseless (l := layoutOf (rotSurfaceCode 3 rotDefault)) (by decide +kernel)
  obtain ⟨xs, h3, h4⟩ := C29_rot_css h1 .refl (by decide) _ h2 o reset
  obtain ⟨xs', h3', h4'⟩ := C29_rot_css_pipelined h1 .refl _ h2 o reset
  rw [h3] at h3'
  cases h3'
  refine ⟨_, xs, h1, h2, h3, ?_, h4, h4'⟩
  have h5 : (layoutOf (rotSurfaceCode 3 rotDefault)).getQubits [("role", .str "anc"), ("stab_type", .str "x_type")] =
    .ok ["X1", "X2", "X3", "X4"] := by decide +kernel
  rw [h3] at h5
  simpa using h5

example (o : SetOrder) (reset : Bool) : ∃ l xs,
    unrotSurfaceCode 2 unrotDefault = .ok l ∧ CanRun (noiselessFor l) l ∧
    l.getQubits [("role", .str "anc"), ("stab_type", .str "x_type")] = .ok xs ∧
    RoundMeasures (noiselessFor l) l (sumGen (cssIter "unrotated_surface_code" o (noiselessFor l) l reset))
      (fun x _ => decide (x ∈ xs)) reset := by
  have h1 : unrotSurfaceCode 2 unrotDefault = .ok (layoutOf (unrotSurfaceCode 2 unrotDefault)) :=
    ok_layoutOf (by decide +kernel)
  have h2 := canRun_noiseless (l := layoutOf (unrotSurfaceCode 2 unrotDefault)) (by decide +kernel)
  obtain ⟨xs, h3, h4⟩ := C29_unrot_css h1 .refl (by decide) _ h2 o reset
  exact ⟨_, xs, h1, h2, h3, h4⟩

/-- A frame with Z at the given qubits. -/
def zFrame (qs : List Nat) : FState Nat := ⟨fun _ => 0, fun q => if q ∈ qs then 1 else 0, [], [], [], 0⟩

/-- **C29** With `distance_z = 1` the round of rot_surface_code_css.py does not measure its stabilizers: there are no
X ancillas, so the data qubits to be rotated in steps a and h are not found, and the only ancilla of the code of
distances 2 and 1 measures a mixed operator, which a Z error flips. -/
theorem C29_rot_css_thin_wrong : ∃ l xs, rotSurfaceCodeRectangle 2 1 rotDefault = .ok l ∧ CanRun (noiselessFor l) l ∧
    l.getQubits [("role", .str "anc"), ("stab_type", .str "x_type")] = .ok xs ∧
    ¬ RoundMeasures (noiselessFor l) l
      (sumGen (cssIter "rotated_surface_code" SetOrder.insertion (noiselessFor l) l true))
      (fun x _ => decide (x ∈ xs)) true := by
  refine ⟨_, [], ok_layoutOf (by decide +kernel), canRun_noiseless (by decide +kernel), by decide +kernel, ?_⟩
  intro h
  have h1 := recsAgree_of h 0 (zFrame [0, 1])
  have h2 : recsAgree (noiselessFor (layoutOf (rotSurfaceCodeRectangle 2 1 rotDefault)))
      (layoutOf (rotSurfaceCodeRectangle 2 1 rotDefault))
      (sumGen (cssIter "rotated_surface_code" SetOrder.insertion
        (noiselessFor (layoutOf (rotSurfaceCodeRectangle 2 1 rotDefault)))
        (layoutOf (rotSurfaceCodeRectangle 2 1 rotDefault)) true))
      (fun x _ => decide (x ∈ ([] : List String))) true 0 (zFrame [0, 1]) = false := by decide +kernel
  rw [h1] at h2
  cases h2

/-- **C31** The round of rot_surface_code_xzzx_pipelined.py measures the XZZX stabilizers. -/
theorem C31_xzzx_pipelined (h : rotSurfaceCodeRectangle dx dz a = .ok l0) (hw : WithParams l0 l) (hdx : 2 ≤ dx)
    (hdz : 2 ≤ dz) (nm : NoiseModel) (hr : CanRun nm l) (o : SetOrder) (reset : Bool) :
    RoundMeasures nm l (sumGen (xzzxPipeIter o nm l reset)) (xzzxType l) reset :=
  (isRot_of_params h hw).xzzxPipe hdx hdz hr o reset

/-- **C31** (partial) The round of rot_surface_code_xzzx.py would measure the XZZX stabilizers if the variable in
line 199 were spelled like the other ones.  Missing: the round as it is, which does not (`C31_xzzx_wrong`). -/
theorem C31_xzzx_fixed_partial (h : rotSurfaceCodeRectangle dx dz a = .ok l0) (hw : WithParams l0 l) (hdx : 2 ≤ dx)
    (hdz : 2 ≤ dz) (nm : NoiseModel) (hr : CanRun nm l) (o : SetOrder) (reset : Bool) :
    RoundMeasures nm l (sumGen (xzzxFixedIter o nm l reset)) (xzzxType l) reset :=
  (isRot_of_params h hw).xzzxFixed hdx hdz hr o reset

example (o : SetOrder) (reset : Bool) : ∃ l,
    rotSurfaceCode 3 rotDefault = .ok l ∧ CanRun (noiselessFor l) l ∧
    RoundMeasures (noiselessFor l) l (sumGen (xzzxPipeIter o (noiselessFor l) l reset)) (xzzxType l) reset ∧
    RoundMeasures (noiselessFor l) l (sumGen (xzzxFixedIter o (noiselessFor l) l reset)) (xzzxType l) reset ∧
    xzzxType l "X2" "D5" = true ∧ xzzxType l "X2" "D2" = false := by
  have h1 : rotSurfaceCode 3 rotDefault = .ok (layoutOf (rotSurfaceCode 3 rotDefault)) :=
    ok_layoutOf (by decide +kernel)
  have h2 := canRun_noiseless (l := layoutOf (rotSurfaceCode 3 rotDefault)) (by decide +kernel)
  exact ⟨_, h1, h2, C31_xzzx_pipelined h1 .refl (by decide) (by decide) _ h2 o reset,
    C31_xzzx_fixed_partial h1 .refl (by decide) (by decide) _ h2 o reset, by decide +kernel, by decide +kernel⟩

/-- **C31** The round of rot_surface_code_xzzx.py as it is does not measure the XZZX stabilizers, because step g
applies the gates of step e again: with the noiseless model on the code of distance 2, outcomes without any error
depend on the random state left by the resets. -/
theorem C31_xzzx_wrong : ∃ l, rotSurfaceCode 2 rotDefault = .ok l ∧ CanRun (noiselessFor l) l ∧
    ¬ RoundMeasures (noiselessFor l) l
      (sumGen (xzzxIter SetOrder.insertion (noiselessFor l) l true)) (xzzxType l) true := by
  refine ⟨_, ok_layoutOf (by decide +kernel), canRun_noiseless (by decide +kernel), ?_⟩
  intro h
  have h1 := recsAgree_of h (fun _ => 1) (zFrame [])
  have h2 : recsAgree (noiselessFor (layoutOf (rotSurfaceCode 2 rotDefault)))
      (layoutOf (rotSurfaceCode 2 rotDefault))
      (sumGen (xzzxIter SetOrder.insertion
        (noiselessFor (layoutOf (rotSurfaceCode 2 rotDefault)))
        (layoutOf (rotSurfaceCode 2 rotDefault)) true))
      (xzzxType (layoutOf (rotSurfaceCode 2 rotDefault))) true (fun _ => 1) (zFrame []) = false := by decide +kernel
  rw [h1] at h2
  cases h2

end SurfaceSim.Props
