/-
The rounds and memory experiments of rot_surface_code_xzzx_google.py (C30, C31, C32, C33, C44, C51).
-/
import Verif.Lemmas.GoogleMemory
import Verif.Props.Hilbert

namespace SurfaceSim.Props
open Spec NoiseModel Blocks Experiments LayoutLib Hilbert

variable {cfg : Detectors.Config} {l l0 : Layout} {a : Args} {dx dz : Int} {dataInit : Dict String Int}
  {ancDetectors : Option (List String)}

/-- **C31** The round of rot_surface_code_xzzx_google.py measures the XZZX stabilizers and resets the ancillas; its echo
pulses flip outcomes and data qubits by amounts that depend neither on the state nor on the randomness. -/
theorem C31_google (h : rotSurfaceCodeRectangle dx dz a = .ok l0) (hw : WithParams l0 l) (nm : NoiseModel)
    (hr : CanRun nm l) (o : SetOrder) : RoundMeasuresShifted nm l (sumGen (googleIter o nm l)) (xzzxType l) :=
  google_measures (isRot_of_params h hw) hr o

/-- **C30** That round keeps the syndromes and the logical operators of the XZZX code, up to fixed flips. -/
theorem C30_google (h : rotSurfaceCodeRectangle dx dz a = .ok l0) (hw : WithParams l0 l) (hdx : 2 ≤ dx) (hdz : 2 ≤ dz)
    (nm : NoiseModel) (hr : CanRun nm l) (o : SetOrder) :
    ∃ zs, l.getQubits [("role", .str "anc"), ("stab_type", .str "z_type")] = .ok zs ∧
      LeavesCodeShifted nm l a.label (sumGen (googleIter o nm l)) (xzzxType l) (fun d => !xzzxRotated l zs d)
        (xzzxRotated l zs) := by
  have hi := isRot_of_params h hw
  refine ⟨_, hi.grid.getQubits_z, (google_measures hi hr o).leaves hi.grid (hi.typed_xzzx hdx hdz)
    (hi.codeGrid (by omega) (by omega)) ?_ ?_⟩
  · simp [hi.logX, Dict.get?]
  · simp [hi.logZ, Dict.get?]

/-- **C44** That round detects every error on one data qubit. -/
theorem C44_google (h : rotSurfaceCodeRectangle dx dz a = .ok l0) (hw : WithParams l0 l) (hdx : 2 ≤ dx) (hdz : 2 ≤ dz)
    (nm : NoiseModel) (hr : CanRun nm l) (o : SetOrder) : DetectsErrors nm l (sumGen (googleIter o nm l)) := by
  have hi := isRot_of_params h hw
  exact (google_measures hi hr o).detects hi.grid hr (exists_typed hi.grid
    (hi.typed_xzzx hdx hdz) (hi.around hdx hdz (by simp)) (hi.around hdx hdz (by simp)))

/-- **C32** Memory experiments of rot_surface_code_xzzx_google.py: the values of all detectors and of the observable are
fixed, for every number of rounds and all random outcomes; they are those of an experiment without ancilla resets before
the first round, up to flips that are the same for all initial bits. -/
theorem C32_google (h : rotSurfaceCodeRectangle dx dz a = .ok l0) (hw : WithParams l0 l) (hdx : 2 ≤ dx) (hdz : 2 ≤ dz)
    (nm : NoiseModel) (hr : CanRun nm l) (ancDetectors : Option (List String)) (o : SetOrder) (rotBasis : Bool) (n : Nat)
    (hn : 1 ≤ n) :
    FixedValuesUpTo cfg nm l a.label n rotBasis false ancDetectors
      (fun dataInit => googleMemory o nm l n dataInit rotBasis ancDetectors false) := by
  obtain ⟨r, rfl⟩ : ∃ r, n = r + 1 := ⟨n - 1, by omega⟩
  exact ((isRot_of_params h hw).memory_google ((rot_numCoords h).params hw) hdx hdz hr ancDetectors o rotBasis r).1

/-- **C32** With `gauge_detectors=True` the same holds, except for the detectors of the first round for ancillas that are
not of the type of the basis. -/
theorem C32_google_gauge (h : rotSurfaceCodeRectangle dx dz a = .ok l0) (hw : WithParams l0 l) (hdx : 2 ≤ dx)
    (hdz : 2 ≤ dz) (nm : NoiseModel) (hr : CanRun nm l) (ancDetectors : Option (List String)) (o : SetOrder)
    (rotBasis : Bool) (n : Nat) (hn : 1 ≤ n) :
    FixedButGaugeUpTo cfg nm l a.label n rotBasis false ancDetectors
      (fun dataInit => googleMemory o nm l n dataInit rotBasis ancDetectors true) := by
  obtain ⟨r, rfl⟩ : ∃ r, n = r + 1 := ⟨n - 1, by omega⟩
  exact ((isRot_of_params h hw).memory_google ((rot_numCoords h).params hw) hdx hdz hr ancDetectors o rotBasis r).2.1

/-- **C32** Memory experiments of rot_surface_code_xzzx_google.py need at least one round. -/
theorem C32_google_raises (nm : NoiseModel) (l : Layout) (dataInit : Dict String Int)
    (ancDetectors : Option (List String)) (o : SetOrder) (rotBasis gauge : Bool) (n : Int) (hn : n ≤ 0) (s : Sim cfg) :
    googleMemory o nm l n dataInit rotBasis ancDetectors gauge s = (.error .valueError, s) := by
  unfold googleMemory
  rw [if_pos hn]
  rfl

/-- **C33** Memory experiments of rot_surface_code_xzzx_google.py with `n` rounds measure the ancillas `n` times and then
the data qubits, in the order of `get_qubits`. -/
theorem C33_google (h : rotSurfaceCodeRectangle dx dz a = .ok l0) (hw : WithParams l0 l) (hdx : 2 ≤ dx) (hdz : 2 ≤ dz)
    (nm : NoiseModel) (hr : CanRun nm l) (hargs : MemoryArgs cfg nm l dataInit ancDetectors) (o : SetOrder)
    (rotBasis gauge : Bool) (n : Nat) (hn : 1 ≤ n) :
    RecordOrder cfg nm l n (googleMemory o nm l n dataInit rotBasis ancDetectors gauge) := by
  obtain ⟨r, rfl⟩ : ∃ r, n = r + 1 := ⟨n - 1, by omega⟩
  exact (((isRot_of_params h hw).memory_google ((rot_numCoords h).params hw) hdx hdz hr ancDetectors o rotBasis r).2.2
    dataInit hargs gauge).1

/-- **C51** Memory experiments of rot_surface_code_xzzx_google.py are deterministic as quantum circuits. -/
theorem C51_memory_google (h : rotSurfaceCodeRectangle dx dz a = .ok l0) (hw : WithParams l0 l) (hdx : 2 ≤ dx)
    (hdz : 2 ≤ dz) (nm : NoiseModel) (hr : CanRun nm l) (hargs : MemoryArgs cfg nm l dataInit ancDetectors) (o : SetOrder)
    (rotBasis : Bool) (n : Nat) (hn : 1 ≤ n) :
    AlwaysDeterministic cfg (googleMemory o nm l n dataInit rotBasis ancDetectors false) := by
  obtain ⟨r, rfl⟩ : ∃ r, n = r + 1 := ⟨n - 1, by omega⟩
  intro s
  obtain ⟨⟨anc, stabs, log, D, b, -, -, -, h1⟩, -, h2⟩ :=
    (isRot_of_params h hw).memory_google ((rot_numCoords h).params hw) hdx hdz hr ancDetectors o rotBasis r
  obtain ⟨c, s', e1, h1⟩ := h1 dataInit hargs s
  obtain ⟨c', s'', e2, h2⟩ := (h2 dataInit hargs false).2 s
  cases e1.symm.trans e2
  refine ⟨c, s', e1, (C51_deterministic h2.2).2 fun ζ ρ ζ' ρ' => ?_⟩
  rw [(h1 ζ ρ).1, (h1 ζ ρ).2.2, (h1 ζ' ρ').1, (h1 ζ' ρ').2.2]
  exact ⟨rfl, rfl⟩

/-- A non-trivial case: any positive number of rounds on a distance-3 code with a data qubit set to one. -/
example (o : SetOrder) (rotBasis : Bool) (n : Nat) (hn : 1 ≤ n) : ∃ l, rotSurfaceCode 3 rotDefault = .ok l ∧
    RoundMeasuresShifted (noiselessFor l) l (sumGen (googleIter o (noiselessFor l) l)) (xzzxType l) ∧
    DetectsErrors (noiselessFor l) l (sumGen (googleIter o (noiselessFor l) l)) ∧
    FixedValuesUpTo (configFor l .postGate) (noiselessFor l) l rotDefault.label n rotBasis false none
      (fun dataInit => googleMemory o (noiselessFor l) l n dataInit rotBasis none false) ∧
    MemoryArgs (configFor l .postGate) (noiselessFor l) l [("D1", 1)] none ∧
    RecordOrder (configFor l .postGate) (noiselessFor l) l n
      (googleMemory o (noiselessFor l) l n [("D1", 1)] rotBasis none false) ∧
    AlwaysDeterministic (configFor l .postGate)
      (googleMemory o (noiselessFor l) l n [("D1", 1)] rotBasis none false) := by
  have h1 : rotSurfaceCode 3 rotDefault = .ok (layoutOf (rotSurfaceCode 3 rotDefault)) :=
    ok_layoutOf (by decide +kernel)
  have h2 := canRun_noiseless (l := layoutOf (rotSurfaceCode 3 rotDefault)) (by decide +kernel)
  have h3 : MemoryArgs (configFor (layoutOf (rotSurfaceCode 3 rotDefault)) .postGate) _ _ [("D1", 1)] none :=
    memoryArgs_noiseless (by decide +kernel)
  exact ⟨_, h1, C31_google h1 .refl _ h2 o, C44_google h1 .refl (by decide) (by decide) _ h2 o,
    C32_google h1 .refl (by decide) (by decide) _ h2 none o rotBasis n hn, h3,
    C33_google h1 .refl (by decide) (by decide) _ h2 h3 o rotBasis false n hn,
    C51_memory_google h1 .refl (by decide) (by decide) _ h2 h3 o rotBasis n hn⟩

/-- The initial bits are visible: setting the corner data qubit `D1` of the distance-3 code to one flips the observable. -/
example (o : SetOrder) (n : Nat) (hn : 1 ≤ n) : ∃ l, rotSurfaceCode 3 rotDefault = .ok l ∧
    ∀ s : Sim (configFor l .postGate), ∃ c s1 c' s2,
      googleMemory o (noiselessFor l) l n [] false none false s = (.ok c, s1) ∧
      googleMemory o (noiselessFor l) l n [("D1", 1)] false none false s = (.ok c', s2) ∧
      ∀ ζ ρ ζ' ρ' : Nat → ZMod 2, ∃ b, observables ζ ρ c = [(0, b)] ∧ observables ζ' ρ' c' = [(0, b + 1)] := by
  have h1 : rotSurfaceCode 3 rotDefault = .ok (layoutOf (rotSurfaceCode 3 rotDefault)) :=
    ok_layoutOf (by decide +kernel)
  have h2 := canRun_noiseless (l := layoutOf (rotSurfaceCode 3 rotDefault)) (by decide +kernel)
  refine ⟨_, h1, fun s => ?_⟩
  obtain ⟨anc, stabs, log, D, b, k1, k2, k3, h⟩ := C32_google
    (cfg := configFor (layoutOf (rotSurfaceCode 3 rotDefault)) .postGate) h1 .refl (by decide) (by decide) _ h2 none o
    false n hn
  obtain ⟨c, s1, e1, f1⟩ := h [] (memoryArgs_noiseless (by decide +kernel)) s
  obtain ⟨c', s2, e2, f2⟩ := h [("D1", 1)] (memoryArgs_noiseless (by decide +kernel)) s
  have hl : log = ["D1", "D2", "D3"] := by
    have : Dict.get? (layoutOf (rotSurfaceCode 3 rotDefault)).logZ rotDefault.label = some ["D1", "D2", "D3"] := by
      decide +kernel
    simpa [this] using k3.symm
  subst hl
  refine ⟨c, s1, c', s2, e1, e2, fun ζ ρ ζ' ρ' => ⟨b + bits [] ["D1", "D2", "D3"], (f1 ζ ρ).2.2, ?_⟩⟩
  rw [(f2 ζ' ρ').2.2, add_assoc]
  rfl

end SurfaceSim.Props
