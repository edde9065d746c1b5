/-
The part of the `stim` circuit language that surface-sim emits, with the checks that
`stim.CircuitInstruction` performs.
-/
import Verif.Model.Py
import Mathlib.Data.Rat.Defs
import Mathlib.Algebra.Order.Ring.Rat

namespace SurfaceSim

/-- Names of the stim instructions used in /repo/surface_sim.  `MZ` is an alias of `M` and
`CNOT` of `CX`, as in stim. -/
inductive Gate where
  | X | Z | H | S | S_DAG | I
  | CZ | CX | SWAP
  | M | MX | MY
  | R | RX | RY
  | DEPOLARIZE1 | DEPOLARIZE2 | X_ERROR | Z_ERROR | PAULI_CHANNEL_1 | PAULI_CHANNEL_2
  | TICK | QUBIT_COORDS | DETECTOR | OBSERVABLE_INCLUDE
  deriving DecidableEq, Repr

/-- Instruction target: a qubit index or a measurement-record lookback `rec[k]`, `k < 0`. -/
inductive Target where
  | qubit (i : Nat)
  | record (k : Int)
  deriving DecidableEq, Repr

/-- Numeric instruction argument.  `idle T1 T2 t k` stands for the `k`-th component of
`idle_error_probs(T1, T2, t)`, which is a real number (`models/util.py` 70-111). -/
inductive Arg where
  | num (q : Rat)
  | idle (t1 t2 t : Rat) (k : Fin 3)
  deriving DecidableEq, Repr

/-- A `stim.CircuitInstruction`. -/
structure Instr where
  gate : Gate
  targets : List Target
  args : List Arg
  deriving DecidableEq, Repr

/-- A `stim.Circuit` (surface-sim never emits REPEAT blocks). -/
abbrev Circuit := List Instr

/-- Does the instruction act on pairs of targets? -/
def Gate.isTwoQubit : Gate → Bool
  | .CZ | .CX | .SWAP | .DEPOLARIZE2 | .PAULI_CHANNEL_2 => true
  | _ => false

/-- Measurement instructions, `util/circuit_operations.py` 10-23 (restricted to the names
that the models emit). -/
def Gate.isMeas : Gate → Bool
  | .M | .MX | .MY => true
  | _ => false

/-- Pure noise channels. -/
def Gate.isNoise : Gate → Bool
  | .DEPOLARIZE1 | .DEPOLARIZE2 | .X_ERROR | .Z_ERROR | .PAULI_CHANNEL_1 | .PAULI_CHANNEL_2 => true
  | _ => false

/-- stim never merges these instructions with a preceding equal one. -/
def Gate.notFusable : Gate → Bool
  | .TICK | .DETECTOR | .OBSERVABLE_INCLUDE => true
  | _ => false

/-- Consecutive targets are paired; `none` for an odd number. -/
def pairUp {α : Type} : List α → Option (List (α × α))
  | [] => some []
  | [_] => none
  | a :: b :: l => (pairUp l).map ((a, b) :: ·)

/-- A rational argument that is a probability (`idle` arguments are handled by the caller,
see `idleArgs`). -/
def Arg.isProb : Arg → Bool
  | .num q => decide (0 ≤ q) && decide (q ≤ 1)
  | .idle .. => true

/-- Number of numeric arguments stim accepts. -/
def Gate.argsOk (g : Gate) (args : List Arg) : Bool :=
  match g with
  | .X | .Z | .H | .S | .S_DAG | .I | .CZ | .CX | .SWAP | .R | .RX | .RY | .TICK => args.isEmpty
  | .M | .MX | .MY => args.length ≤ 1 && args.all Arg.isProb
  | .DEPOLARIZE1 =>
      match args with
      | [.num q] => decide (0 ≤ q) && decide (q ≤ 3/4)
      | _ => false
  | .DEPOLARIZE2 =>
      match args with
      | [.num q] => decide (0 ≤ q) && decide (q ≤ 15/16)
      | _ => false
  | .X_ERROR | .Z_ERROR => args.length == 1 && args.all Arg.isProb
  | .PAULI_CHANNEL_1 => args.length == 3 && args.all Arg.isProb
  | .PAULI_CHANNEL_2 => args.length == 15 && args.all Arg.isProb
  | .QUBIT_COORDS | .DETECTOR => true
  | .OBSERVABLE_INCLUDE => args.length == 1

/-- `stim.CircuitInstruction(name, targets, args)`: raises `ValueError` for a wrong number of
arguments, arguments that are not probabilities, an odd number of targets of a two-qubit
gate, or a two-qubit gate between a qubit and itself.  (Stim's check that a probability list
sums to at most one is not modelled.) -/
def mkInstr (g : Gate) (targets : List Target) (args : List Arg) : Except Err Instr :=
  if !g.argsOk args then .error .valueError
  else if g.isTwoQubit then
    match pairUp targets with
    | none => .error .valueError
    | some ps => if ps.any (fun p => p.1 == p.2) then .error .valueError else .ok ⟨g, targets, args⟩
  else .ok ⟨g, targets, args⟩

/-- `circuit.append(instr)`: stim fuses an instruction with the last one if the name and the
arguments agree. -/
def Circuit.append (c : Circuit) (i : Instr) : Circuit :=
  match c.getLast? with
  | none => [i]
  | some l =>
    if l.gate = i.gate ∧ l.args = i.args ∧ i.gate.notFusable = false then
      c.dropLast ++ [⟨l.gate, l.targets ++ i.targets, l.args⟩]
    else c ++ [i]

/-- The qubit indices among the targets. -/
def Instr.qubits (i : Instr) : List Nat :=
  i.targets.filterMap fun
    | .qubit q => some q
    | .record _ => none

/-- The record lookbacks among the targets. -/
def Instr.recs (i : Instr) : List Int :=
  i.targets.filterMap fun
    | .qubit _ => none
    | .record k => some k

/-- `circuit.num_ticks`. -/
def Circuit.numTicks (c : Circuit) : Nat := c.countP fun i => i.gate = .TICK

/-- `circuit.num_measurements`. -/
def Circuit.numMeas (c : Circuit) : Nat :=
  (c.map fun i => if i.gate.isMeas then i.targets.length else 0).sum

end SurfaceSim
