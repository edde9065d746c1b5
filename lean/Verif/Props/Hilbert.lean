/-
The frame semantics and the images of Pauli operators follow from quantum mechanics, and memory experiments are
deterministic (C51).
-/
import Verif.Lemmas.HilbertCircuit
import Verif.Props.Memory

namespace SurfaceSim

instance {Q : Type} [DecidableEq Q] : DecidablePred (Spec.Op.Distinct (Q := Q))
  | .cz a b | .cx a b | .swap a b => inferInstanceAs (Decidable (a ≠ b))
  | .x _ | .z _ | .h _ | .s _ | .sdag _ | .m _ | .mx _ | .my _ | .r _ | .rx _ | .ry _ | .det _ | .obs _ _ => .isTrue trivial

end SurfaceSim

namespace SurfaceSim.Props
open Spec NoiseModel Blocks Experiments LayoutLib Hilbert

/-- **C51** The rules for the images of signed Pauli operators (`Pauli.conj`, used for the transversal gates) follow from
the matrices of the gates: applying `P` and then the gates is applying the gates and then the image of `P`. -/
theorem C51_conj {Q : Type} [DecidableEq Q] {A : Finset Q} {l : List (Op Q)} (ho : ∀ op ∈ l, op.On A)
    (hd : ∀ op ∈ l, op.Distinct) (P : Pauli Q) (ψ : Ket Q) :
    l.foldl gate (P.act A ψ) = (P.conjAll l).act A (l.foldl gate ψ) :=
  gates_act ho hd P ψ

/-- **C51** Every circuit (of operations on pairs of different qubits) has a possible result. -/
theorem C51_possible {c : Circuit} (hd : ∀ op ∈ ops c, op.Distinct) : ∃ s, Runs (ops c) (QState.init Nat) s :=
  exists_run hd

/-- **C51** The possible results of a circuit (outcomes, detectors and observables that have non-zero probability) are
exactly the results of the frame simulation, for some random bits, added to one result of the circuit without its gates X
and Z. -/
theorem C51_frames {c : Circuit} (hd : ∀ op ∈ ops c, op.Distinct) {s0 : QState Nat}
    (h0 : Runs (withoutFlips (ops c)) (QState.init Nat) s0) (R D : List (ZMod 2)) (O : List (Rat × ZMod 2)) :
    (∃ s, Runs (ops c) (QState.init Nat) s ∧ s.recs = R ∧ s.dets = D ∧ s.obs = O) ↔
    ∃ ζ ρ, R = addLists s0.recs (run ρ (FState.start ζ) (ops c)).recs ∧
      D = addLists s0.dets (run ρ (FState.start ζ) (ops c)).dets ∧
      O = addObs s0.obs (run ρ (FState.start ζ) (ops c)).obs :=
  result_iff hd h0 R D O

/-- **C51** The detectors and observables of a circuit do not depend on random outcomes if and only if their values in
frame simulations do not depend on the random bits. -/
theorem C51_deterministic {c : Circuit} (hd : ∀ op ∈ ops c, op.Distinct) :
    Deterministic (ops c) ↔
      ∀ ζ ρ ζ' ρ', detectors ζ ρ c = detectors ζ' ρ' c ∧ observables ζ ρ c = observables ζ' ρ' c := by
  rw [deterministic_iff hd]
  unfold detectors observables
  simp only [List.reverse_inj]

/-- A circuit that is deterministic, but not because the outcomes are: a Bell pair, both qubits measured. -/
example : Deterministic (ops [⟨.H, [.qubit 0], []⟩, ⟨.CX, [.qubit 0, .qubit 1], []⟩, ⟨.M, [.qubit 0, .qubit 1], []⟩,
    ⟨.DETECTOR, [.record (-1), .record (-2)], []⟩]) ∧
    ¬ Deterministic (ops [⟨.H, [.qubit 0], []⟩, ⟨.CX, [.qubit 0, .qubit 1], []⟩, ⟨.M, [.qubit 0, .qubit 1], []⟩,
      ⟨.DETECTOR, [.record (-1)], []⟩]) := by
  constructor
  · rw [C51_deterministic (by decide)]
    have : ∀ ζ ρ : Nat → ZMod 2, detectors ζ ρ [⟨.H, [.qubit 0], []⟩, ⟨.CX, [.qubit 0, .qubit 1], []⟩, ⟨.M, [.qubit 0, .qubit 1], []⟩,
        ⟨.DETECTOR, [.record (-1), .record (-2)], []⟩] = [0] ∧ observables ζ ρ [⟨.H, [.qubit 0], []⟩, ⟨.CX, [.qubit 0, .qubit 1], []⟩,
        ⟨.M, [.qubit 0, .qubit 1], []⟩, ⟨.DETECTOR, [.record (-1), .record (-2)], []⟩] = [] := by
      intro ζ ρ
      refine ⟨?_, rfl⟩
      show [parity [0 + ζ 0, ζ 0] [-1, -2]] = [0]
      generalize ζ 0 = b
      revert b
      decide
    intro ζ ρ ζ' ρ'
    rw [(this ζ ρ).1, (this ζ ρ).2, (this ζ' ρ').1, (this ζ' ρ').2]
    exact ⟨rfl, rfl⟩
  · rw [C51_deterministic (by decide)]
    intro h
    have := (h 0 0 1 0).1
    revert this
    decide

/-- The rule for X on the first qubit of a CX. -/
example (ψ : Ket Nat) (A : Finset Nat) (h0 : 0 ∈ A) (h1 : 1 ∈ A) :
    gate (Pauli.act A ⟨0, Pi.single 0 1, 0⟩ ψ) (.cx 0 1) =
      Pauli.act A ⟨0, Function.update (Pi.single 0 1) 1 1, 0⟩ (gate ψ (.cx 0 1)) := by
  have := C51_conj (A := A) (l := [.cx 0 1]) (by simp [Op.On, h0, h1]) (by simp [Op.Distinct]) ⟨0, Pi.single 0 1, 0⟩ ψ
  have e : (Pauli.mk 0 (Pi.single 0 1) 0 : Pauli Nat).conjAll [.cx 0 1] = ⟨0, Function.update (Pi.single 0 1) 1 1, 0⟩ := by
    simp [Pauli.conjAll, Pauli.conj]
  rw [e] at this
  exact this

end SurfaceSim.Props

namespace SurfaceSim
open Spec NoiseModel Experiments Hilbert

variable {cfg : Detectors.Config} {nm : NoiseModel} {l : Layout} {label : String} {n : Nat} {dataInit : Dict String Int}
  {rotBasis reset : Bool} {ancDetectors : Option (List String)} {e : Bool → PyM (Sim cfg) Circuit}

/-- The experiment `e` always returns a circuit whose detectors and observables do not depend on the outcomes of
measurements. -/
def AlwaysDeterministic (cfg : Detectors.Config) (e : PyM (Sim cfg) Circuit) : Prop :=
  ∀ s, ∃ c s', e s = (.ok c, s') ∧ Deterministic (ops c)

theorem MemoryGood.deterministic (h : MemoryGood cfg nm l label n dataInit rotBasis reset ancDetectors e) :
    AlwaysDeterministic cfg (e false) := by
  intro s
  obtain ⟨⟨anc, stabs, log, -, -, -, h1⟩, -, -, h2⟩ := h
  obtain ⟨c, s', e1, h1⟩ := h1 s
  obtain ⟨c', s'', e2, h2⟩ := h2 false s
  rw [e1] at e2
  cases e2
  refine ⟨c, s', e1, (Props.C51_deterministic h2.2).2 fun ζ ρ ζ' ρ' => ?_⟩
  rw [(h1 ζ ρ).1, (h1 ζ ρ).2, (h1 ζ' ρ').1, (h1 ζ' ρ').2]
  exact ⟨rfl, rfl⟩

end SurfaceSim

namespace SurfaceSim.Props
open Spec NoiseModel Blocks Experiments LayoutLib Hilbert

variable {cfg : Detectors.Config} {l l0 : Layout} {a : Args} {dx dz : Int} {dataInit : Dict String Int}
  {ancDetectors : Option (List String)}

/-- **C51** Memory experiments of rot_surface_code_css.py: in every possible run (with the quantum mechanics of kets, gates
and projective measurements) the detectors and the observable have the same values. -/
theorem C51_memory_rot_css (h : rotSurfaceCodeRectangle dx dz a = .ok l0) (hw : WithParams l0 l) (hdx : 1 ≤ dx)
    (hdz : 2 ≤ dz) (nm : NoiseModel) (hr : CanRun nm l) (hargs : MemoryArgs cfg nm l dataInit ancDetectors)
    (o o' : SetOrder) (rotBasis reset : Bool) (n : Nat) :
    AlwaysDeterministic cfg (memory (rotCss cfg o nm) o' nm l n dataInit rotBasis reset ancDetectors false) :=
  ((isRot_of_params h hw).memory_css ((rot_numCoords h).params hw) hdx hdz hr hargs o o' rotBasis reset n).deterministic

/-- **C51** Same for rot_surface_code_css_pipelined.py. -/
theorem C51_memory_rot_css_pipelined (h : rotSurfaceCodeRectangle dx dz a = .ok l0) (hw : WithParams l0 l) (hdx : 1 ≤ dx)
    (hdz : 1 ≤ dz) (nm : NoiseModel) (hr : CanRun nm l) (hargs : MemoryArgs cfg nm l dataInit ancDetectors)
    (o o' : SetOrder) (rotBasis reset : Bool) (n : Nat) :
    AlwaysDeterministic cfg (memory (rotCssPipelined cfg o nm) o' nm l n dataInit rotBasis reset ancDetectors false) :=
  ((isRot_of_params h hw).memory_cssPipe ((rot_numCoords h).params hw) hdx hdz hr hargs o o' rotBasis reset
    n).deterministic

/-- **C51** Same for unrot_surface_code_css.py. -/
theorem C51_memory_unrot_css (h : unrotSurfaceCodeRectangle dx dz a = .ok l0) (hw : WithParams l0 l) (hdx : 1 ≤ dx)
    (hdz : 2 ≤ dz) (nm : NoiseModel) (hr : CanRun nm l) (hargs : MemoryArgs cfg nm l dataInit ancDetectors)
    (o o' : SetOrder) (rotBasis reset : Bool) (n : Nat) :
    AlwaysDeterministic cfg (memory (unrotCss cfg o nm) o' nm l n dataInit rotBasis reset ancDetectors false) :=
  ((isUnrot_of_params h hw).memory_css ((unrot_numCoords h).params hw) hdx hdz hr hargs o o' rotBasis reset
    n).deterministic

/-- **C51** Same for rot_surface_code_xzzx_pipelined.py. -/
theorem C51_memory_xzzx_pipelined (h : rotSurfaceCodeRectangle dx dz a = .ok l0) (hw : WithParams l0 l) (hdx : 2 ≤ dx)
    (hdz : 2 ≤ dz) (nm : NoiseModel) (hr : CanRun nm l) (hargs : MemoryArgs cfg nm l dataInit ancDetectors)
    (o o' : SetOrder) (rotBasis reset : Bool) (n : Nat) :
    AlwaysDeterministic cfg (memory (xzzxPipelined cfg o nm) o' nm l n dataInit rotBasis reset ancDetectors false) :=
  ((isRot_of_params h hw).memory_xzzxPipe ((rot_numCoords h).params hw) hdx hdz hr hargs o o' rotBasis reset
    n).deterministic

/-- A non-trivial case: any number of rounds on a distance-3 code with a data qubit set to one. -/
example (o o' : SetOrder) (rotBasis reset : Bool) (n : Nat) : ∃ l, rotSurfaceCode 3 rotDefault = .ok l ∧
    AlwaysDeterministic (configFor l .postGate) (memory (rotCss (configFor l .postGate) o (noiselessFor l)) o'
      (noiselessFor l) l n [("D1", 1)] rotBasis reset none false) := by
  have h1 : rotSurfaceCode 3 rotDefault = .ok (layoutOf (rotSurfaceCode 3 rotDefault)) :=
    ok_layoutOf (by decide +kernel)
  have h2 := canRun_noiseless (l := layoutOf (rotSurfaceCode 3 rotDefault)) (by decide +kernel)
  exact ⟨_, h1, C51_memory_rot_css h1 .refl (by decide) (by decide) _ h2
    (memoryArgs_noiseless (frame := .postGate) (dataInit := [("D1", 1)]) (ancDetectors := none) (by decide +kernel)) o o'
    rotBasis reset n⟩

/-- **C51** The experiment of `C32_xzzx_wrong` has possible runs with different detectors. -/
theorem C51_memory_xzzx_wrong : ∃ l c s s', rotSurfaceCode 2 rotDefault = .ok l ∧ CanRun (noiselessFor l) l ∧
    MemoryArgs (configFor l .postGate) (noiselessFor l) l [] none ∧
    memory (xzzx (configFor l .postGate) .insertion (noiselessFor l)) .insertion (noiselessFor l) l 1 [] false true none
      false s = (.ok c, s') ∧ ¬ Deterministic (ops c) := by
  refine ⟨_, circuitOf (memory (xzzx (configFor (layoutOf (rotSurfaceCode 2 rotDefault)) .postGate) .insertion
      (noiselessFor (layoutOf (rotSurfaceCode 2 rotDefault)))) .insertion
      (noiselessFor (layoutOf (rotSurfaceCode 2 rotDefault))) (layoutOf (rotSurfaceCode 2 rotDefault)) 1 [] false true
      none false) (MeasState.fresh (noiselessFor (layoutOf (rotSurfaceCode 2 rotDefault))).inds,
        Detectors.State.fresh _), (MeasState.fresh (noiselessFor (layoutOf (rotSurfaceCode 2 rotDefault))).inds,
        Detectors.State.fresh _), _, ok_layoutOf (by decide +kernel), canRun_noiseless (by decide +kernel),
      memoryArgs_noiseless (by decide +kernel), eq_circuitOf (by decide +kernel), ?_⟩
  rw [C51_deterministic (by decide +kernel)]
  intro h
  have := (h 0 0 0 1).1
  revert this
  decide +kernel

end SurfaceSim.Props
