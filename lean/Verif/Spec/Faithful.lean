/-
What it means for a noise-model method to implement an ideal operation.
-/
import Verif.Spec.Frame
import Verif.Model.NoiseModels
import Verif.Lemmas.MeasRecord

namespace SurfaceSim.Spec
open SurfaceSim

/-- The stim index of a label. -/
def ind (inds : Dict String Nat) (q : String) : Nat := (inds.get? q).getD 0

/-- For all known qubits the method succeeds, leaves the record alone, and the noise-free content of
the returned circuit is `op` on each qubit, in the given order. -/
def Implements1 (inds : Dict String Nat) (f : List String → PyM MeasState Circuit)
    (op : Nat → Op Nat) : Prop :=
  ∀ qs : List String, (∀ q ∈ qs, q ∈ inds.keys) → ∀ s : MeasState,
    ∃ c, f qs s = (.ok c, s) ∧ ops c = qs.map (fun q => op (ind inds q))

/-- Same for two-qubit operations, on the concatenated list of pairs of different qubits. -/
def Implements2 (inds : Dict String Nat) (f : List String → PyM MeasState Circuit)
    (op : Nat → Nat → Op Nat) : Prop :=
  ∀ ps : List (String × String),
    (∀ p ∈ ps, p.1 ∈ inds.keys ∧ p.2 ∈ inds.keys ∧ ind inds p.1 ≠ ind inds p.2) → ∀ s : MeasState,
    ∃ c, f (ps.flatMap fun p => [p.1, p.2]) s = (.ok c, s) ∧
      ops c = ps.map (fun p => op (ind inds p.1) (ind inds p.2))

/-- Same for measurements; moreover the record grows by exactly the measured qubits, in order. -/
def Measures (inds : Dict String Nat) (f : List String → PyM MeasState Circuit)
    (op : Nat → Op Nat) : Prop :=
  ∀ qs : List String, (∀ q ∈ qs, q ∈ inds.keys) → ∀ (s : MeasState) (hist : List String),
    s.Tracks inds hist →
    ∃ c s', f qs s = (.ok c, s') ∧ ops c = qs.map (fun q => op (ind inds q)) ∧
      s'.Tracks inds (hist ++ qs)

/-- The method only emits noise (or nothing). -/
def Silent (inds : Dict String Nat) (f : List String → PyM MeasState Circuit) : Prop :=
  ∀ qs : List String, (∀ q ∈ qs, q ∈ inds.keys) → ∀ s : MeasState,
    ∃ c, f qs s = (.ok c, s) ∧ ops c = []

/-- Two-qubit instructions have an even number of qubit targets. -/
def EvenPairs (c : Circuit) : Prop := ∀ i ∈ c, i.gate.isTwoQubit = true → i.qubits.length % 2 = 0

/-- The targets of two-qubit instructions are in pairs of different qubits. -/
def PairsOk (c : Circuit) : Prop := EvenPairs c ∧ ∀ op ∈ ops c, op.Distinct

/-- Whatever the method returns has the targets of two-qubit instructions in pairs. -/
def PairedOut (f : List String → PyM MeasState Circuit) : Prop :=
  ∀ qs s c s', f qs s = (.ok c, s') → EvenPairs c

/-- A noise model all of whose methods used by the circuit blocks implement the operation they are
named after. -/
structure Faithful (nm : NoiseModel) : Prop where
  xGate : Implements1 nm.inds nm.xGate .x
  zGate : Implements1 nm.inds nm.zGate .z
  hadamard : Implements1 nm.inds nm.hadamard .h
  sGate : Implements1 nm.inds nm.sGate .s
  sDagGate : Implements1 nm.inds nm.sDagGate .sdag
  cphase : Implements2 nm.inds nm.cphase .cz
  cnot : Implements2 nm.inds nm.cnot .cx
  swap : Implements2 nm.inds nm.swap .swap
  measure : Measures nm.inds nm.measure .m
  reset : Implements1 nm.inds nm.reset .r
  idle : Silent nm.inds nm.idle
  incomingNoise : Silent nm.inds nm.incomingNoise
  paired : ∀ f ∈ [nm.xGate, nm.zGate, nm.hadamard, nm.sGate, nm.sDagGate, nm.cphase, nm.cnot, nm.swap,
    nm.measure, nm.reset, nm.idle, nm.incomingNoise], PairedOut f

end SurfaceSim.Spec
