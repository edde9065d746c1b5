/-
The blocks `log_x`, `log_z` and their XZZX versions apply the logical operators of the layout (C41).
-/
import Verif.Lemmas.LogicalGates
import Verif.Lemmas.Witness

namespace SurfaceSim.Props
open Spec NoiseModel Blocks LayoutLib

variable {l l0 : Layout} {a : Args} {dx dz : Int}

/-- **C41** On every rotated surface code `log_x` leaves all syndromes and the logical X value, and flips the logical Z
value. -/
theorem C41_rot_log_x (h : rotSurfaceCodeRectangle dx dz a = .ok l0) (hw : WithParams l0 l) (hdx : 1 ≤ dx)
    (hdz : 1 ≤ dz) (nm : NoiseModel) (hr : CanRun nm l) (o : SetOrder) :
    ∃ xs, l.getQubits [("role", .str "anc"), ("stab_type", .str "x_type")] = .ok xs ∧
      AppliesLogical nm l a.label (logX o nm l) (fun x _ => decide (x ∈ xs)) (fun _ => true) (fun _ => false) 0 1 := by
  have hi := isRot_of_params h hw
  have hc := hi.codeGrid hdx hdz
  refine ⟨_, hi.grid.getQubits_x, ?_⟩
  exact appliesLogical_grid hi.grid hr (typed_css hi.grid) hc (logXList_nodup a dx (by omega)) (logZList_nodup a dz)
    (rot_logs_overlap hi.grid hdx hdz) (by simp [hi.logX, Dict.get?]) (by simp [hi.logZ, Dict.get?]) true
    (logXList_nodup a dx (by omega)) List.nodup_nil (by simp) (by simp)
    (does_logX hi.grid hr o hi.log hi.logX hi.logZ hc.subX)

/-- **C41** `log_z` flips the logical X value and nothing else. -/
theorem C41_rot_log_z (h : rotSurfaceCodeRectangle dx dz a = .ok l0) (hw : WithParams l0 l) (hdx : 1 ≤ dx)
    (hdz : 1 ≤ dz) (nm : NoiseModel) (hr : CanRun nm l) (o : SetOrder) :
    ∃ xs, l.getQubits [("role", .str "anc"), ("stab_type", .str "x_type")] = .ok xs ∧
      AppliesLogical nm l a.label (logZ o nm l) (fun x _ => decide (x ∈ xs)) (fun _ => true) (fun _ => false) 1 0 := by
  have hi := isRot_of_params h hw
  have hc := hi.codeGrid hdx hdz
  refine ⟨_, hi.grid.getQubits_x, ?_⟩
  exact appliesLogical_grid hi.grid hr (typed_css hi.grid) hc (logXList_nodup a dx (by omega)) (logZList_nodup a dz)
    (rot_logs_overlap hi.grid hdx hdz) (by simp [hi.logX, Dict.get?]) (by simp [hi.logZ, Dict.get?]) false
    List.nodup_nil (logZList_nodup a dz) (by simp) (by simp)
    (does_logZ hi.grid hr o hi.log hi.logX hi.logZ hc.subZ)

/-- **C41** The same on every unrotated surface code. -/
theorem C41_unrot_log_x (h : unrotSurfaceCodeRectangle dx dz a = .ok l0) (hw : WithParams l0 l) (hdx : 1 ≤ dx)
    (hdz : 1 ≤ dz) (nm : NoiseModel) (hr : CanRun nm l) (o : SetOrder) :
    ∃ xs, l.getQubits [("role", .str "anc"), ("stab_type", .str "x_type")] = .ok xs ∧
      AppliesLogical nm l a.label (logX o nm l) (fun x _ => decide (x ∈ xs)) (fun _ => true) (fun _ => false) 0 1 := by
  have hi := isUnrot_of_params h hw
  have hc := hi.codeGrid hdx hdz
  refine ⟨_, hi.grid.getQubits_x, ?_⟩
  exact appliesLogical_grid hi.grid hr (typed_css hi.grid) hc (logXList_nodup a dx (by omega)) (logZList_nodup a dz)
    (unrot_logs_overlap hi.grid hdx hdz) (by simp [hi.logX, Dict.get?]) (by simp [hi.logZ, Dict.get?]) true
    (logXList_nodup a dx (by omega)) List.nodup_nil (by simp) (by simp)
    (does_logX hi.grid hr o hi.log hi.logX hi.logZ hc.subX)

theorem C41_unrot_log_z (h : unrotSurfaceCodeRectangle dx dz a = .ok l0) (hw : WithParams l0 l) (hdx : 1 ≤ dx)
    (hdz : 1 ≤ dz) (nm : NoiseModel) (hr : CanRun nm l) (o : SetOrder) :
    ∃ xs, l.getQubits [("role", .str "anc"), ("stab_type", .str "x_type")] = .ok xs ∧
      AppliesLogical nm l a.label (logZ o nm l) (fun x _ => decide (x ∈ xs)) (fun _ => true) (fun _ => false) 1 0 := by
  have hi := isUnrot_of_params h hw
  have hc := hi.codeGrid hdx hdz
  refine ⟨_, hi.grid.getQubits_x, ?_⟩
  exact appliesLogical_grid hi.grid hr (typed_css hi.grid) hc (logXList_nodup a dx (by omega)) (logZList_nodup a dz)
    (unrot_logs_overlap hi.grid hdx hdz) (by simp [hi.logX, Dict.get?]) (by simp [hi.logZ, Dict.get?]) false
    List.nodup_nil (logZList_nodup a dz) (by simp) (by simp)
    (does_logZ hi.grid hr o hi.log hi.logX hi.logZ hc.subZ)

/-- **C41** The XZZX versions, for the stabilizers and logical operators of the XZZX code. -/
theorem C41_xzzx_log_x (h : rotSurfaceCodeRectangle dx dz a = .ok l0) (hw : WithParams l0 l) (hdx : 2 ≤ dx)
    (hdz : 2 ≤ dz) (nm : NoiseModel) (hr : CanRun nm l) (o : SetOrder) :
    ∃ zs, l.getQubits [("role", .str "anc"), ("stab_type", .str "z_type")] = .ok zs ∧
      AppliesLogical nm l a.label (logXXzzx o nm l) (xzzxType l) (fun d => !xzzxRotated l zs d) (xzzxRotated l zs)
        0 1 := by
  have hi := isRot_of_params h hw
  have hc := hi.codeGrid (by omega) (by omega)
  refine ⟨_, hi.grid.getQubits_z, ?_⟩
  obtain ⟨px, pz, n1, n2, h1, h2, hd⟩ := does_logXXzzx hi.grid hr o hi.log hi.logX hi.logZ hc.subX
  refine appliesLogical_grid hi.grid hr (hi.typed_xzzx hdx hdz) hc (logXList_nodup a dx (by omega))
    (logZList_nodup a dz) (rot_logs_overlap hi.grid (by omega) (by omega)) (by simp [hi.logX, Dict.get?])
    (by simp [hi.logZ, Dict.get?]) true n1 n2 (fun d => ?_) (fun d => ?_) hd
  · rw [h1]
    refine and_congr_right fun hdl => ?_
    rw [hi.mem_xzzxR hdx hdz false (hc.subX d hdl)]
    simp
  · rw [h2]
    refine and_congr_right fun hdl => ?_
    rw [hi.mem_xzzxR hdx hdz false (hc.subX d hdl)]
    simp

theorem C41_xzzx_log_z (h : rotSurfaceCodeRectangle dx dz a = .ok l0) (hw : WithParams l0 l) (hdx : 2 ≤ dx)
    (hdz : 2 ≤ dz) (nm : NoiseModel) (hr : CanRun nm l) (o : SetOrder) :
    ∃ zs, l.getQubits [("role", .str "anc"), ("stab_type", .str "z_type")] = .ok zs ∧
      AppliesLogical nm l a.label (logZXzzx o nm l) (xzzxType l) (fun d => !xzzxRotated l zs d) (xzzxRotated l zs)
        1 0 := by
  have hi := isRot_of_params h hw
  have hc := hi.codeGrid (by omega) (by omega)
  refine ⟨_, hi.grid.getQubits_z, ?_⟩
  obtain ⟨px, pz, n1, n2, h1, h2, hd⟩ := does_logZXzzx hi.grid hr o hi.log hi.logX hi.logZ hc.subZ
  refine appliesLogical_grid hi.grid hr (hi.typed_xzzx hdx hdz) hc (logXList_nodup a dx (by omega))
    (logZList_nodup a dz) (rot_logs_overlap hi.grid (by omega) (by omega)) (by simp [hi.logX, Dict.get?])
    (by simp [hi.logZ, Dict.get?]) false n1 n2 (fun d => ?_) (fun d => ?_) hd
  · rw [h1]
    refine and_congr_right fun hdl => ?_
    rw [hi.mem_xzzxR hdx hdz false (hc.subZ d hdl)]
    simp
  · rw [h2]
    refine and_congr_right fun hdl => ?_
    rw [hi.mem_xzzxR hdx hdz false (hc.subZ d hdl)]
    simp

/-- A non-trivial case: distance 3, where the logical X operator of the XZZX code is X Z X. -/
example (o : SetOrder) : ∃ (l : Layout) (xs zs : List String),
    rotSurfaceCode 3 rotDefault = .ok l ∧ CanRun (noiselessFor l) l ∧
    l.logX.get? rotDefault.label = some ["D1", "D4", "D7"] ∧ xzzxRotated l zs "D1" = false ∧
    xzzxRotated l zs "D4" = true ∧ xzzxRotated l zs "D7" = false ∧
    AppliesLogical (noiselessFor l) l rotDefault.label (logX o (noiselessFor l) l) (fun x _ => decide (x ∈ xs))
      (fun _ => true) (fun _ => false) 0 1 ∧
    AppliesLogical (noiselessFor l) l rotDefault.label (logXXzzx o (noiselessFor l) l) (xzzxType l)
      (fun d => !xzzxRotated l zs d) (xzzxRotated l zs) 0 1 := by
  have h1 : rotSurfaceCode 3 rotDefault = .ok (layoutOf (rotSurfaceCode 3 rotDefault)) :=
    ok_layoutOf (by decide +kernel)
  have h2 := canRun_noiseless (l := layoutOf (rotSurfaceCode 3 rotDefault)) (by decide +kernel)
  obtain ⟨xs, -, h4⟩ := C41_rot_log_x h1 .refl (by decide) (by decide) _ h2 o
  obtain ⟨zs, h5, h6⟩ := C41_xzzx_log_x h1 .refl (by decide) (by decide) _ h2 o
  have h7 : (layoutOf (rotSurfaceCode 3 rotDefault)).getQubits [("role", .str "anc"), ("stab_type", .str "z_type")] =
    .ok ["Z1", "Z2", "Z3", "Z4"] := by decide +kernel
  have h8 : zs = ["Z1", "Z2", "Z3", "Z4"] := by rw [h5] at h7; simpa using h7
  subst h8
  exact ⟨_, xs, _, h1, h2, by decide +kernel, by decide +kernel, by decide +kernel, by decide +kernel, h4, h6⟩

end SurfaceSim.Props
