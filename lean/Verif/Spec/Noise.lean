/-
What the noisy circuits of the models must contain: every elementary gate, measurement and noise
application in order, with its arguments.
-/
import Verif.Spec.Faithful

namespace SurfaceSim.Spec
open SurfaceSim NoiseModel

/-- One gate, measurement, reset or noise channel applied to one qubit or to one pair. -/
abbrev Elem := Gate × List Nat × List Arg

/-- Elementary applications of an instruction (targets one by one, or in pairs). -/
def elemsI (i : Instr) : List Elem :=
  if i.gate.isTwoQubit then (pairs i.qubits).map fun p => (i.gate, [p.1, p.2], i.args)
  else i.qubits.map fun q => (i.gate, [q], i.args)

/-- Elementary applications of a circuit, in order. -/
def elems (c : Circuit) : List Elem := c.flatMap elemsI

/-- The value of a numeric parameter for the given qubits (0 if the lookup fails). -/
def paramValue (s : Setup) (name : String) (qs : List String) : Rat :=
  match numParam s name qs with
  | .ok p => p
  | .error _ => 0

/-- `f(qubits)` succeeds and returns exactly: `g` on each qubit, then `noise` on each qubit, with the
arguments `args q` of that qubit. -/
def GateThenNoise (inds : Dict String Nat) (f : List String → PyM MeasState Circuit) (g noise : Gate)
    (args : String → List Arg) : Prop :=
  ∀ qs : List String, (∀ q ∈ qs, q ∈ inds.keys) → ∀ m : MeasState,
    ∃ c, f qs m = (.ok c, m) ∧
      elems c = qs.map (fun q => (g, [ind inds q], [])) ++
        qs.map (fun q => (noise, [ind inds q], args q))

/-- Same for two-qubit gates. -/
def GateThenNoise2 (inds : Dict String Nat) (f : List String → PyM MeasState Circuit) (g noise : Gate)
    (args : String → String → List Arg) : Prop :=
  ∀ ps : List (String × String),
    (∀ p ∈ ps, p.1 ∈ inds.keys ∧ p.2 ∈ inds.keys ∧ ind inds p.1 ≠ ind inds p.2) → ∀ m : MeasState,
    ∃ c, f (ps.flatMap fun p => [p.1, p.2]) m = (.ok c, m) ∧
      elems c = ps.map (fun p => (g, [ind inds p.1, ind inds p.2], [])) ++
        ps.map (fun p => (noise, [ind inds p.1, ind inds p.2], args p.1 p.2))

/-- `f(qubits)` succeeds and returns exactly: `noise` on each qubit with the arguments of that
qubit, then the measurement `g` of each qubit with the assignment error of that qubit. -/
def NoiseThenMeasure (inds : Dict String Nat) (f : List String → PyM MeasState Circuit)
    (g noise : Gate) (args assign : String → List Arg) : Prop :=
  ∀ qs : List String, (∀ q ∈ qs, q ∈ inds.keys) → ∀ (m : MeasState) (hist : List String),
    m.Tracks inds hist →
    ∃ c m', f qs m = (.ok c, m') ∧
      elems c = qs.map (fun q => (noise, [ind inds q], args q)) ++
        qs.map (fun q => (g, [ind inds q], assign q)) ∧
      m'.Tracks inds (hist ++ qs)

/-- Assignment error of a qubit: the probability if the flag is set, nothing otherwise. -/
def assignArgs (s : Setup) (q : String) : List Arg :=
  match s.param "assign_error_flag" [q] with
  | .ok v => if v.truthy then [.num (paramValue s "assign_error_prob" [q])] else []
  | .error _ => []

/-- The parameter exists for these qubits and is a probability of at most `hi`. -/
def ProbParam (s : Setup) (name : String) (qs : List String) (hi : Rat) : Prop :=
  ∃ p, numParam s name qs = .ok p ∧ 0 ≤ p ∧ p ≤ hi

/-- Assignment-error parameters are usable for every known qubit. -/
def AssignOk (s : Setup) (inds : Dict String Nat) : Prop :=
  ∀ q ∈ inds.keys, ∃ v, s.param "assign_error_flag" [q] = .ok v ∧
    (v.truthy = true → ProbParam s "assign_error_prob" [q] 1)

/-- The setup gives every parameter read by `CircuitNoiseModel`, as a probability that stim's
channel accepts. -/
structure CircuitNoiseOk (s : Setup) (inds : Dict String Nat) : Prop where
  sq : ∀ name ∈ ["x_error_prob", "z_error_prob", "h_error_prob", "s_error_prob", "sdag_error_prob",
      "idle_error_prob"], ∀ q ∈ inds.keys, ProbParam s name [q] (3/4)
  tq : ∀ name ∈ ["cz_error_prob", "cnot_error_prob", "swap_error_prob"],
    ∀ p ∈ inds.keys, ∀ q ∈ inds.keys, ProbParam s name [p, q] (15/16)
  spam : ∀ name ∈ ["meas_error_prob", "reset_error_prob"], ∀ q ∈ inds.keys, ProbParam s name [q] 1
  assign : AssignOk s inds

/-- The biased Pauli of the given qubits is `X`, `Y` or `Z`, and the bias factor is not negative. -/
def BiasOk (s : Setup) (qs : List String) : Prop :=
  (∃ P, s.param "biased_pauli" qs = .ok (.str P) ∧ P ∈ ["X", "Y", "Z"]) ∧
  ∃ f, numParam s "biased_factor" qs = .ok f ∧ 0 ≤ f

/-- The setup gives every parameter read by `BiasedCircuitNoiseModel`. -/
structure BiasedNoiseOk (s : Setup) (inds : Dict String Nat) : Prop where
  sq : ∀ name ∈ ["x_error_prob", "z_error_prob", "h_error_prob", "s_error_prob", "sdag_error_prob",
      "idle_error_prob"], ∀ q ∈ inds.keys, ProbParam s name [q] 1
  tq : ∀ name ∈ ["cz_error_prob", "cnot_error_prob", "swap_error_prob"],
    ∀ p ∈ inds.keys, ∀ q ∈ inds.keys, ProbParam s name [p, q] 1
  spam : ∀ name ∈ ["meas_error_prob", "reset_error_prob"], ∀ q ∈ inds.keys, ProbParam s name [q] 1
  assign : AssignOk s inds
  bias1 : ∀ q ∈ inds.keys, BiasOk s [q]
  bias2 : ∀ p ∈ inds.keys, ∀ q ∈ inds.keys, BiasOk s [p, q]

/-- All non-identity Pauli strings on `n` qubits, in the order of stim's `PAULI_CHANNEL_n`
arguments (`X, Y, Z`, respectively `IX, IY, IZ, XI, ..., ZZ`). -/
def pauliStrings : Nat → List (List String)
  | 1 => [["X"], ["Y"], ["Z"]]
  | 2 => [["I", "X"], ["I", "Y"], ["I", "Z"], ["X", "I"], ["X", "X"], ["X", "Y"], ["X", "Z"],
      ["Y", "I"], ["Y", "X"], ["Y", "Y"], ["Y", "Z"], ["Z", "I"], ["Z", "X"], ["Z", "Y"], ["Z", "Z"]]
  | _ => []

/-- Arguments of the biased channel: the probability is distributed over the Pauli strings so
that the total is `p` and strings containing `P` are `f` times as likely as the others. -/
def biasedChannel (p : Rat) (P : String) (f : Rat) (n : Nat) : List Arg :=
  let total : Rat := ((pauliStrings n).map fun op => if P ∈ op then f else 1).sum
  (pauliStrings n).map fun op => .num (p * ((if P ∈ op then f else 1) / total))

/-- The biased channel with the parameters of the given qubits. -/
def biasedChannelOf (s : Setup) (name : String) (n : Nat) (qs : List String) : List Arg :=
  match s.param "biased_pauli" qs with
  | .ok (.str P) => biasedChannel (paramValue s name qs) P (paramValue s "biased_factor" qs) n
  | _ => []

end SurfaceSim.Spec
