/-
C58: the noise of memory experiments must cause as many errors as the distance of the code.
-/
import Verif.Lemmas.NoiseFaults
import Verif.Lemmas.NoiseLocalExp
import Verif.Props.FaultDistance
import Verif.Props.UsageExp

namespace SurfaceSim.Props
open SurfaceSim Spec NoiseModel Blocks Experiments LayoutLib

variable {cfg : Detectors.Config} {l0 l : Layout} {a : Args} {dx dz : Int} {dataInit : Dict String Int}
  {ancDetectors : Option (List String)} {ex : Bool} {nm : NoiseModel} {qs : List String}

/-- **C58** The noise models that the circuit blocks can be called with put two-qubit channels only after two-qubit gates on
the same pairs of qubits. -/
theorem C58_models (st : Setup) (inds : Dict String Nat) : LocalNoise (noiseless inds) ∧ LocalNoise (incoming st inds) ∧
    LocalNoise (phenomenological st inds) ∧ LocalNoise (circuitNoise st inds) ∧ LocalNoise (biasedNoise st inds) :=
  ⟨local_noiseless inds, local_incoming st inds, local_phenomenological st inds, local_circuitNoise st inds,
    local_biasedNoise st inds⟩

theorem nodup_inds (hr : CanRun nm l) (hq : l.getQubits [] = .ok qs) (hn : qs.Nodup) : (qs.map (ind nm.inds)).Nodup := by
  rw [List.nodup_map_iff_inj_on hn]
  exact fun x hx y hy e => hr.inj x (hr.known qs hq x hx) y (hr.known qs hq y hy) e

theorem protects_memory {fam : Family cfg} {d : Nat} {o : SetOrder} {R : Int} {rot reset gauge : Bool} {ni no : Bool → Nat} {nr : Nat}
    (hr : CanRun nm l) (hq : l.getQubits [] = .ok qs) (hn : qs.Nodup)
    (hd : ∀ s, ∃ c s', memory fam o nm l R dataInit rot reset ancDetectors gauge s = (.ok c, s') ∧ Detects d c ∧ Unseen d c)
    (hl : FamilyLocal fam l) (hf : FamilyUses acts ex (qs.map (ind nm.inds)) fam l dataInit ni no nr reset) :
    NoiseDistance cfg d (memory fam o nm l R dataInit rot reset ancDetectors gauge) := fun s => by
  obtain ⟨c, s', h1, h2, h3⟩ := hd s
  exact ⟨c, s', h1, protects_of_detects ((time_memory hf h1).nodup (nodup_inds hr hq hn))
    (hl.memory _ _ _ _ _ _ _ _ _ _ _ h1).2 h2, h3.not_protects⟩

/-- **C58** Memory experiments of rot_surface_code_css.py: take all noise channels of the returned circuit, and let each of
them put any Pauli error on any of its qubits or pairs of qubits, and let any measurement have a wrong outcome.  As long as
this happens fewer times than the code has rows (for the Z basis) or columns (for the X basis), a detector changes or the
observable does not.  Some errors of this number go unnoticed, so that it is exact. -/
theorem C58_rot_css (h : rotSurfaceCodeRectangle dx dz a = .ok l0) (hw : WithParams l0 l) (hdx : 1 ≤ dx) (hdz : 2 ≤ dz)
    (hr : CanRun nm l) (hu : Uses acts ex nm) (hl : LocalNoise nm) (hargs : MemoryArgs cfg nm l dataInit ancDetectors)
    (hq : l.getQubits [] = .ok qs) (hk : ∀ q v, (q, v) ∈ dataInit → v ≠ 0 → q ∈ qs) (o o' : SetOrder)
    (rotBasis reset gauge : Bool) (hsel : SelectsBasis l rotBasis ancDetectors) (n : Nat) :
    NoiseDistance cfg (if rotBasis then dz else dx).toNat
      (memory (rotCss cfg o nm) o' nm l n dataInit rotBasis reset ancDetectors gauge) := by
  obtain ⟨qs', h1, hn, -⟩ := C28_rot_css (cfg := cfg) h hw hu o reset none
  rw [hq, Except.ok.injEq] at h1
  subst h1
  exact protects_memory hr hq hn ((isRot_of_params h hw).detects_css ((rot_numCoords h).params hw) hdx hdz hr hargs o o' rotBasis reset gauge hsel n)
    ((localModel_of hr.faithful hl).rotCss o l) (rot_family hq hk hu o reset h hw)

/-- **C58** Same for rot_surface_code_css_pipelined.py. -/
theorem C58_rot_css_pipelined (h : rotSurfaceCodeRectangle dx dz a = .ok l0) (hw : WithParams l0 l) (hdx : 1 ≤ dx) (hdz : 1 ≤ dz)
    (hr : CanRun nm l) (hu : Uses acts ex nm) (hl : LocalNoise nm) (hargs : MemoryArgs cfg nm l dataInit ancDetectors)
    (hq : l.getQubits [] = .ok qs) (hk : ∀ q v, (q, v) ∈ dataInit → v ≠ 0 → q ∈ qs) (o o' : SetOrder)
    (rotBasis reset gauge : Bool) (hsel : SelectsBasis l rotBasis ancDetectors) (n : Nat) :
    NoiseDistance cfg (if rotBasis then dz else dx).toNat
      (memory (rotCssPipelined cfg o nm) o' nm l n dataInit rotBasis reset ancDetectors gauge) := by
  obtain ⟨qs', h1, hn, -⟩ := C28_rot_css (cfg := cfg) h hw hu o reset none
  rw [hq, Except.ok.injEq] at h1
  subst h1
  exact protects_memory hr hq hn ((isRot_of_params h hw).detects_cssPipe ((rot_numCoords h).params hw) hdx hdz hr hargs o o' rotBasis reset gauge hsel n)
    ((localModel_of hr.faithful hl).rotCssPipelined o l) (pipe_family hq hk hu o reset h hw)

/-- **C58** Same for rot_surface_code_xzzx_pipelined.py. -/
theorem C58_xzzx_pipelined (h : rotSurfaceCodeRectangle dx dz a = .ok l0) (hw : WithParams l0 l) (hdx : 2 ≤ dx) (hdz : 2 ≤ dz)
    (hr : CanRun nm l) (hu : Uses acts ex nm) (hl : LocalNoise nm) (hargs : MemoryArgs cfg nm l dataInit ancDetectors)
    (hq : l.getQubits [] = .ok qs) (hk : ∀ q v, (q, v) ∈ dataInit → v ≠ 0 → q ∈ qs) (o o' : SetOrder)
    (rotBasis reset gauge : Bool) (hsel : SelectsBasis l rotBasis ancDetectors) (n : Nat) :
    NoiseDistance cfg (if rotBasis then dz else dx).toNat
      (memory (xzzxPipelined cfg o nm) o' nm l n dataInit rotBasis reset ancDetectors gauge) := by
  obtain ⟨qs', h1, hn, -⟩ := C28_rot_css (cfg := cfg) h hw hu o reset none
  rw [hq, Except.ok.injEq] at h1
  subst h1
  exact protects_memory hr hq hn ((isRot_of_params h hw).detects_xzzxPipe ((rot_numCoords h).params hw) hdx hdz hr hargs o o' rotBasis reset gauge hsel n)
    ((localModel_of hr.faithful hl).xzzxPipelined o l) (xzzxPipe_family hq hk hu o reset h hw)

/-- **C58** Same for rot_surface_code_xzzx_google.py. -/
theorem C58_google (h : rotSurfaceCodeRectangle dx dz a = .ok l0) (hw : WithParams l0 l) (hdx : 2 ≤ dx) (hdz : 2 ≤ dz)
    (hr : CanRun nm l) (hu : Uses acts ex nm) (hl : LocalNoise nm) (hargs : MemoryArgs cfg nm l dataInit ancDetectors)
    (hq : l.getQubits [] = .ok qs) (hk : ∀ q v, (q, v) ∈ dataInit → v ≠ 0 → q ∈ qs) (o : SetOrder)
    (rotBasis gauge : Bool) (hsel : SelectsBasis l rotBasis ancDetectors) (n : Nat) :
    NoiseDistance cfg (if rotBasis then dz else dx).toNat
      (googleMemory o nm l (n + 1 : Nat) dataInit rotBasis ancDetectors gauge) := by
  obtain ⟨qs', h1, hn, -⟩ := C28_rot_css (cfg := cfg) h hw hu o false none
  rw [hq, Except.ok.injEq] at h1
  subst h1
  intro s
  obtain ⟨c, s', h1, h2, h3⟩ := (isRot_of_params h hw).detects_google ((rot_numCoords h).params hw) hdx hdz hr hargs o rotBasis
    gauge hsel n s
  have ht := time_google hu.marks (fun _ _ _ hi => (C28_rot_init h hw hu o dataInit hq hk rotBasis).2.of hq hi)
    (fun sel _ _ _ hi => (C28_google h hw hu o sel rotBasis).1.of hq hi)
    (fun sel _ _ _ hi => (C28_google h hw hu o sel rotBasis).2.of hq hi) h1
  exact ⟨c, s', h1, protects_of_detects (ht.nodup (nodup_inds hr hq hn))
    (isLocal_googleMemory (localModel_of hr.faithful hl) _ _ _ _ _ _ _ _ _ h1).2 h2, h3.not_protects⟩

/-- **C58** Same for unrot_surface_code_css.py. -/
theorem C58_unrot_css (h : unrotSurfaceCodeRectangle dx dz a = .ok l0) (hw : WithParams l0 l) (hdx : 1 ≤ dx) (hdz : 2 ≤ dz)
    (hr : CanRun nm l) (hu : Uses acts ex nm) (hl : LocalNoise nm) (hargs : MemoryArgs cfg nm l dataInit ancDetectors)
    (hq : l.getQubits [] = .ok qs) (hk : ∀ q v, (q, v) ∈ dataInit → v ≠ 0 → q ∈ qs) (o o' : SetOrder)
    (rotBasis reset gauge : Bool) (hsel : SelectsBasis l rotBasis ancDetectors) (n : Nat) :
    NoiseDistance cfg (if rotBasis then dz else dx).toNat
      (memory (unrotCss cfg o nm) o' nm l n dataInit rotBasis reset ancDetectors gauge) := by
  obtain ⟨qs', h1, hn, -⟩ := C28_unrot_css (cfg := cfg) h hw hu o reset none
  rw [hq, Except.ok.injEq] at h1
  subst h1
  exact protects_memory hr hq hn ((isUnrot_of_params h hw).detects_css ((unrot_numCoords h).params hw) hdx hdz hr hargs o o' rotBasis reset gauge hsel n)
    ((localModel_of hr.faithful hl).unrotCss o l) (unrot_family hq hk hu o reset h hw)

theorem noisySetup_ok (inds : Dict String Nat) : CircuitNoiseOk noisySetup inds := by
  obtain ⟨s, h1, h2⟩ := C34_circuit_noise_setup_ok (1/100) (by norm_num) (by norm_num) inds
  unfold noisySetup
  rw [h1]
  exact h2

theorem canRun_noisy {l : Layout} (h : indsFine l = true) : CanRun (noisyFor l) l :=
  ⟨(C34_circuit_noise _ _ (noisySetup_ok _)).toFaithful, (canRun_noiseless h).inj, (canRun_noiseless h).known⟩

theorem memoryArgs_noisy {l : Layout} {frame : Detectors.Frame} {dataInit : Dict String Int}
    {ancDetectors : Option (List String)} (h : argsFine l dataInit ancDetectors = true) :
    MemoryArgs (configFor l frame) (noisyFor l) l dataInit ancDetectors :=
  have := memoryArgs_noiseless (frame := frame) h
  ⟨this.config, this.anc, this.data, this.init⟩

/-- The distance-3 codes with `CircuitNoiseModel`: no two errors of the noise change the observable without a detector, and some
three do. -/
example (o o' : SetOrder) (rotBasis reset gauge : Bool) (n : Nat) : ∃ l, rotSurfaceCode 3 rotDefault = .ok l ∧
    NoiseDistance (configFor l .postGate) 3
      (memory (rotCss _ o (noisyFor l)) o' (noisyFor l) l n [("D1", 1)] rotBasis reset none gauge) := by
  have h1 : rotSurfaceCode 3 rotDefault = .ok (layoutOf (rotSurfaceCode 3 rotDefault)) :=
    ok_layoutOf (by decide +kernel)
  have h2 : (layoutOf (rotSurfaceCode 3 rotDefault)).getQubits [] = .ok ["D1", "D2", "D3", "D4", "D5", "D6", "D7", "D8", "D9",
    "X1", "X2", "X3", "X4", "Z1", "Z2", "Z3", "Z4"] := by decide +kernel
  refine ⟨_, h1, ?_⟩
  have := C58_rot_css h1 .refl (by decide) (by decide) (canRun_noisy (by decide +kernel)) (uses_circuitNoise _ _)
    (local_circuitNoise _ _)
    (memoryArgs_noisy (frame := .postGate) (dataInit := [("D1", 1)]) (ancDetectors := none) (by decide +kernel)) h2
    (by intro q v hq _; simp at hq; simp [hq.1]) o o' rotBasis reset gauge (fun _ h => nomatch h) n
  cases rotBasis <;> exact this

example (o o' : SetOrder) (rotBasis reset gauge : Bool) (n : Nat) : ∃ l, rotSurfaceCode 3 rotDefault = .ok l ∧
    NoiseDistance (configFor l .preGate) 3
      (memory (rotCssPipelined _ o (noisyFor l)) o' (noisyFor l) l n [] rotBasis reset none gauge) := by
  have h1 : rotSurfaceCode 3 rotDefault = .ok (layoutOf (rotSurfaceCode 3 rotDefault)) :=
    ok_layoutOf (by decide +kernel)
  have h2 : (layoutOf (rotSurfaceCode 3 rotDefault)).getQubits [] = .ok ["D1", "D2", "D3", "D4", "D5", "D6", "D7", "D8", "D9",
    "X1", "X2", "X3", "X4", "Z1", "Z2", "Z3", "Z4"] := by decide +kernel
  refine ⟨_, h1, ?_⟩
  have := C58_rot_css_pipelined h1 .refl (by decide) (by decide) (canRun_noisy (by decide +kernel)) (uses_circuitNoise _ _)
    (local_circuitNoise _ _)
    (memoryArgs_noisy (frame := .preGate) (dataInit := []) (ancDetectors := none) (by decide +kernel)) h2
    (by simp) o o' rotBasis reset gauge (fun _ h => nomatch h) n
  cases rotBasis <;> exact this

example (o o' : SetOrder) (rotBasis reset gauge : Bool) (n : Nat) : ∃ l, rotSurfaceCode 3 rotDefault = .ok l ∧
    NoiseDistance (configFor l .preGate) 3
      (memory (xzzxPipelined _ o (noisyFor l)) o' (noisyFor l) l n [] rotBasis reset none gauge) := by
  have h1 : rotSurfaceCode 3 rotDefault = .ok (layoutOf (rotSurfaceCode 3 rotDefault)) :=
    ok_layoutOf (by decide +kernel)
  have h2 : (layoutOf (rotSurfaceCode 3 rotDefault)).getQubits [] = .ok ["D1", "D2", "D3", "D4", "D5", "D6", "D7", "D8", "D9",
    "X1", "X2", "X3", "X4", "Z1", "Z2", "Z3", "Z4"] := by decide +kernel
  refine ⟨_, h1, ?_⟩
  have := C58_xzzx_pipelined h1 .refl (by decide) (by decide) (canRun_noisy (by decide +kernel)) (uses_circuitNoise _ _)
    (local_circuitNoise _ _)
    (memoryArgs_noisy (frame := .preGate) (dataInit := []) (ancDetectors := none) (by decide +kernel)) h2
    (by simp) o o' rotBasis reset gauge (fun _ h => nomatch h) n
  cases rotBasis <;> exact this

example (o : SetOrder) (rotBasis gauge : Bool) (n : Nat) : ∃ l, rotSurfaceCode 3 rotDefault = .ok l ∧
    NoiseDistance (configFor l .postGate) 3
      (googleMemory o (noisyFor l) l (n + 1 : Nat) [("D1", 1)] rotBasis none gauge) := by
  have h1 : rotSurfaceCode 3 rotDefault = .ok (layoutOf (rotSurfaceCode 3 rotDefault)) :=
    ok_layoutOf (by decide +kernel)
  have h2 : (layoutOf (rotSurfaceCode 3 rotDefault)).getQubits [] = .ok ["D1", "D2", "D3", "D4", "D5", "D6", "D7", "D8", "D9",
    "X1", "X2", "X3", "X4", "Z1", "Z2", "Z3", "Z4"] := by decide +kernel
  refine ⟨_, h1, ?_⟩
  have := C58_google h1 .refl (by decide) (by decide) (canRun_noisy (by decide +kernel)) (uses_circuitNoise _ _)
    (local_circuitNoise _ _)
    (memoryArgs_noisy (frame := .postGate) (dataInit := [("D1", 1)]) (ancDetectors := none) (by decide +kernel)) h2
    (by intro q v hq _; simp at hq; simp [hq.1]) o rotBasis gauge (fun _ h => nomatch h) n
  cases rotBasis <;> exact this

example (o o' : SetOrder) (reset gauge : Bool) (n : Nat) : ∃ l, unrotSurfaceCodeRectangle 2 3 unrotDefault = .ok l ∧
    NoiseDistance (configFor l .postGate) 3
      (memory (unrotCss _ o (noisyFor l)) o' (noisyFor l) l n [] true reset none gauge) := by
  have h1 : unrotSurfaceCodeRectangle 2 3 unrotDefault = .ok (layoutOf (unrotSurfaceCodeRectangle 2 3 unrotDefault)) :=
    ok_layoutOf (by decide +kernel)
  have h2 : ∃ qs, (layoutOf (unrotSurfaceCodeRectangle 2 3 unrotDefault)).getQubits [] = .ok qs := by
    obtain ⟨qs, h, -⟩ := C28_unrot_css (cfg := configFor default .postGate) h1 .refl (uses_circuitNoise noisySetup []) .insertion false none
    exact ⟨qs, h⟩
  obtain ⟨qs, h2⟩ := h2
  exact ⟨_, h1, C58_unrot_css h1 .refl (by decide) (by decide) (canRun_noisy (by decide +kernel)) (uses_circuitNoise _ _)
    (local_circuitNoise _ _)
    (memoryArgs_noisy (frame := .postGate) (dataInit := []) (ancDetectors := none) (by decide +kernel)) h2
    (by simp) o o' true reset gauge (fun _ h => nomatch h) n⟩

end SurfaceSim.Props
