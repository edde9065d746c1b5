/-
Errors caused by the noise channels of a circuit.

Every channel of a circuit may or may not put an error on each of its targets, and every measurement may give a wrong outcome.
All Pauli errors are allowed for all channels, whatever the probabilities.
-/
import Verif.Spec.Faults
import Verif.Spec.Usage

namespace SurfaceSim.Spec
open SurfaceSim

/-- Errors on `k` of the qubits. -/
inductive Errors1 : List Nat → List (Op Nat) → Nat → Prop
  | none : Errors1 [] [] 0
  | skip {l : List Nat} {E : List (Op Nat)} {k : Nat} (q : Nat) (h : Errors1 l E k) : Errors1 (q :: l) E k
  | hit {l : List Nat} {E : List (Op Nat)} {k : Nat} (q : Nat) (bx bz : Bool) (h : Errors1 l E k) :
      Errors1 (q :: l) (pauli q bx bz ++ E) (k + 1)

/-- Errors on `k` of the pairs of qubits. -/
inductive Errors2 : List (Nat × Nat) → List (Op Nat) → Nat → Prop
  | none : Errors2 [] [] 0
  | skip {l : List (Nat × Nat)} {E : List (Op Nat)} {k : Nat} (p : Nat × Nat) (h : Errors2 l E k) : Errors2 (p :: l) E k
  | hit {l : List (Nat × Nat)} {E : List (Op Nat)} {k : Nat} (p : Nat × Nat) (ax az bx bz : Bool) (h : Errors2 l E k) :
      Errors2 (p :: l) (pauli p.1 ax az ++ pauli p.2 bx bz ++ E) (k + 1)

/-- Measurements (`m`), `k` of which give the wrong outcome: `flip` is the Pauli operator that changes the outcome. -/
inductive Readout (m flip : Nat → Op Nat) : List Nat → List (Op Nat) → Nat → Prop
  | none : Readout m flip [] [] 0
  | right {l : List Nat} {E : List (Op Nat)} {k : Nat} (q : Nat) (h : Readout m flip l E k) :
      Readout m flip (q :: l) (m q :: E) k
  | wrong {l : List Nat} {E : List (Op Nat)} {k : Nat} (q : Nat) (h : Readout m flip l E k) :
      Readout m flip (q :: l) ([flip q, m q, flip q] ++ E) (k + 1)

/-- What the instruction does, with `k` errors. -/
def Behaves (i : Instr) (E : List (Op Nat)) (k : Nat) : Prop :=
  match i.gate with
  | .DEPOLARIZE1 | .X_ERROR | .Z_ERROR | .PAULI_CHANNEL_1 => Errors1 i.qubits E k
  | .DEPOLARIZE2 | .PAULI_CHANNEL_2 => Errors2 (pairs i.qubits) E k
  | .M => Readout .m .x i.qubits E k
  | .MX => Readout .mx .z i.qubits E k
  | .MY => Readout .my .x i.qubits E k
  | _ => E = instrOps i ∧ k = 0

/-- `L` is done in a run of the noisy circuit with `k` errors. -/
inductive Realizes : Circuit → List (Op Nat) → Nat → Prop
  | done : Realizes [] [] 0
  | instr {c : Circuit} {E L : List (Op Nat)} {j k : Nat} (i : Instr) (hi : Behaves i E j) (h : Realizes c L k) :
      Realizes (i :: c) (E ++ L) (j + k)

/-- The noise of the circuit with fewer than `d` errors changes a detector or no observable. -/
def Protects (d : Nat) (c : Circuit) : Prop :=
  ∀ (L : List (Op Nat)) (k : Nat), Realizes c L k → k < d → ∀ ζ ρ : Nat → ZMod 2,
    (run ρ (FState.start ζ) L).dets.reverse = detectors ζ ρ c →
      (run ρ (FState.start ζ) L).obs.reverse = observables ζ ρ c

/-- The experiment `e` returns a circuit whose noise must cause at least `d` errors to change the observables and no detector,
and can do so with `d` errors. -/
def NoiseDistance (cfg : Detectors.Config) (d : Nat) (e : PyM (Sim cfg) Circuit) : Prop :=
  ∀ s, ∃ c s', e s = (.ok c, s') ∧ Protects d c ∧ ¬ Protects (d + 1) c

/-- Every two-qubit channel is on pairs of qubits with a two-qubit gate before it and after the last TICK (or on the pairs
`S`), and all measurements are in the Z basis. -/
def Follows : List (Nat × Nat) → Circuit → Prop
  | _, [] => True
  | S, i :: c =>
    if i.gate = .TICK then Follows [] c
    else if i.gate ∈ [.DEPOLARIZE2, .PAULI_CHANNEL_2] then (∀ p ∈ pairs i.qubits, p ∈ S) ∧ Follows S c
    else if i.gate ∈ [.CZ, .CX, .SWAP] then Follows (pairs i.qubits ++ S) c
    else i.gate ∉ [.MX, .MY] ∧ Follows S c

/-- The methods of the noise model put two-qubit channels only after two-qubit gates on the same qubits. -/
def LocalNoise (nm : NoiseModel) : Prop :=
  ∀ f ∈ [nm.xGate, nm.zGate, nm.hadamard, nm.sGate, nm.sDagGate, nm.cphase, nm.cnot, nm.swap,
    nm.measure, nm.reset, nm.idle, nm.incomingNoise], ∀ qs s c s', f qs s = (.ok c, s') → Follows [] c

end SurfaceSim.Spec
