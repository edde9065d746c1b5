/-
Model of `surface_sim/models/model.py` (circuit-building part) and `surface_sim/models/library.py`.
-/
import Verif.Model.MeasRecord
import Verif.Model.Setup
import Verif.Model.ModelUtil

namespace SurfaceSim

/-- The methods of a noise model that the circuit blocks call (model.py 102-176).  Every method
gets the qubits in iteration order and may update the measurement record. -/
structure NoiseModel where
  inds : Dict String Nat
  xGate : List String → PyM MeasState Circuit
  zGate : List String → PyM MeasState Circuit
  hadamard : List String → PyM MeasState Circuit
  sGate : List String → PyM MeasState Circuit
  sDagGate : List String → PyM MeasState Circuit
  cnot : List String → PyM MeasState Circuit
  cphase : List String → PyM MeasState Circuit
  swap : List String → PyM MeasState Circuit
  measure : List String → PyM MeasState Circuit
  measureX : List String → PyM MeasState Circuit
  measureY : List String → PyM MeasState Circuit
  reset : List String → PyM MeasState Circuit
  resetX : List String → PyM MeasState Circuit
  resetY : List String → PyM MeasState Circuit
  idle : List String → PyM MeasState Circuit
  incomingNoise : List String → PyM MeasState Circuit

namespace NoiseModel

/-- `Model.tick` (model.py 103-106). -/
def tick : Circuit := [⟨.TICK, [], []⟩]

/-- `Model.get_inds` (model.py 27-31). -/
def getInds (inds : Dict String Nat) (qs : List String) : Except Err (List Nat) :=
  mapExcept qs inds.getE

/-- `circ.append(CircuitInstruction(name, inds, args))`. -/
def appendOp (c : Circuit) (g : Gate) (ts : List Nat) (args : List Arg) : Except Err Circuit :=
  match mkInstr g (ts.map Target.qubit) args with
  | .error e => .error e
  | .ok i => .ok (Circuit.append c i)

/-- `self.param(name, *qubits)` used as a number. -/
def numParam (s : Setup) (p : String) (qs : List String) : Except Err Rat :=
  match s.param p qs with
  | .error e => .error e
  | .ok v => v.toNum

/-- `set(a) > set(b)`: strict superset, the membership test used all over the code. -/
def strictSuperset (a b : List String) : Bool :=
  b.all (fun x => decide (x ∈ a)) && a.any (fun x => decide (x ∉ b))

/-- `Model.qubit_coords` (model.py 108-121). -/
def qubitCoords (inds : Dict String Nat) (coords : Dict String (List Rat)) : Except Err Circuit :=
  if strictSuperset coords.keys inds.keys then .error .valueError
  else
    coords.foldl (fun acc kv =>
      match acc with
      | .error e => .error e
      | .ok c =>
        match inds.get? kv.1 with
        | none => .error .keyError
        | some i => appendOp c .QUBIT_COORDS [i] (kv.2.map Arg.num)) (.ok [])

/-- How the arguments of the noise channel of one qubit or pair are computed. -/
abbrev ArgRule := List String → Except Err (List Arg)

/-- `[self.param(name, *qubits)]`. -/
def plainArgs (s : Setup) (p : String) : ArgRule := fun qs =>
  match numParam s p qs with
  | .error e => .error e
  | .ok q => .ok [.num q]

/-- `prob * biased_prefactors(...)` (library.py 225-231, 313-319). -/
def biasedArgs (s : Setup) (p : String) (n : Nat) : ArgRule := fun qs =>
  match numParam s p qs with
  | .error e => .error e
  | .ok prob =>
    match s.param "biased_pauli" qs with
    | .error e => .error e
    | .ok (.num _) => .error .typeError
    | .ok (.flag _) => .error .typeError
    | .ok (.str pauli) =>
      match numParam s "biased_factor" qs with
      | .error e => .error e
      | .ok factor =>
        match biasedPrefactors pauli factor n with
        | .error e => .error e
        | .ok fs => .ok (fs.map fun f => .num (prob * f))

/-- The loop `for qubit, ind in zip(qubits, inds): circ.append(noise, [ind], args)`. -/
def noiseLoop (noise : Gate) (rule : ArgRule) :
    Circuit → List (List String × List Nat) → Except Err Circuit
  | c, [] => .ok c
  | c, (qs, is) :: l =>
    match rule qs with
    | .error e => .error e
    | .ok args =>
      match appendOp c noise is args with
      | .error e => .error e
      | .ok c' => noiseLoop noise rule c' l

/-- `zip(qubits, inds)` as singleton groups. -/
def singles (qs : List String) (is : List Nat) : List (List String × List Nat) :=
  (qs.zip is).map fun p => ([p.1], [p.2])

/-- `zip(grouper(qubits, 2), grouper(inds, 2))` (util.py 15-19): raises on an odd number. -/
def pairGroups (qs : List String) (is : List Nat) : Except Err (List (List String × List Nat)) :=
  match pairUp qs, pairUp is with
  | some ps, some js => .ok ((ps.zip js).map fun p => ([p.1.1, p.1.2], [p.2.1, p.2.2]))
  | _, _ => .error .valueError

/-- A single-qubit gate or reset followed by noise (e.g. library.py 14-23, 168-177). -/
def sqOp (inds : Dict String Nat) (g noise : Gate) (rule : ArgRule) (qs : List String) :
    Except Err Circuit :=
  match getInds inds qs with
  | .error e => .error e
  | .ok is =>
    match appendOp [] g is [] with
    | .error e => .error e
    | .ok c => noiseLoop noise rule c (singles qs is)

/-- A two-qubit gate followed by noise (e.g. library.py 69-81). -/
def tqOp (inds : Dict String Nat) (g noise : Gate) (rule : ArgRule) (qs : List String) :
    Except Err Circuit :=
  if qs.length % 2 ≠ 0 then .error .valueError
  else
    match getInds inds qs with
    | .error e => .error e
    | .ok is =>
      match appendOp [] g is [] with
      | .error e => .error e
      | .ok c =>
        match pairGroups qs is with
        | .error e => .error e
        | .ok gs => noiseLoop noise rule c gs

/-- An operation without noise (e.g. `NoiselessModel`, library.py 898-936). -/
def plainOp (inds : Dict String Nat) (g : Gate) (qs : List String) : Except Err Circuit :=
  match getInds inds qs with
  | .error e => .error e
  | .ok is => appendOp [] g is []

/-- The noise-only operation `idle` (library.py 201-208, 453-466). -/
def noiseOnly (inds : Dict String Nat) (noise : Gate) (rule : ArgRule) (qs : List String) :
    Except Err Circuit :=
  match getInds inds qs with
  | .error e => .error e
  | .ok is => noiseLoop noise rule [] (singles qs is)

/-- The measurement loop of library.py 121-128: record, then append with or without assignment
error. -/
def measLoop (s : Setup) (inds : Dict String Nat) (g : Gate) :
    Circuit → List (String × Nat) → PyM MeasState Circuit
  | c, [] => pure c
  | c, (q, i) :: l => do
    MeasState.addMeas inds q
    let flag ← PyM.ofExcept (s.param "assign_error_flag" [q])
    let args ← if flag.truthy then PyM.ofExcept (plainArgs s "assign_error_prob" [q]) else pure []
    let c' ← PyM.ofExcept (appendOp c g [i] args)
    measLoop s inds g c' l

/-- A measurement preceded by noise (library.py 111-128, 130-147, 149-166). -/
def measOp (s : Setup) (inds : Dict String Nat) (g noise : Gate) (qs : List String) :
    PyM MeasState Circuit := do
  let is ← PyM.ofExcept (getInds inds qs)
  let c ← PyM.ofExcept (noiseLoop noise (plainArgs s "meas_error_prob") [] (singles qs is))
  measLoop s inds g c (qs.zip is)

/-- The noiseless measurement loop (library.py 938-957). -/
def plainMeasLoop (inds : Dict String Nat) (g : Gate) :
    Circuit → List String → PyM MeasState Circuit
  | c, [] => pure c
  | c, q :: l => do
    MeasState.addMeas inds q
    let is ← PyM.ofExcept (getInds inds [q])
    let c' ← PyM.ofExcept (appendOp c g is [])
    plainMeasLoop inds g c' l

/-- A method that does not touch the record. -/
def lift (f : List String → Except Err Circuit) : List String → PyM MeasState Circuit :=
  fun qs => PyM.ofExcept (f qs)

/-- `incoming_noise` of the circuit-level models: the empty circuit (library.py 210-211). -/
def noIncoming : List String → PyM MeasState Circuit := fun _ => pure []

/-- `CircuitNoiseModel` (library.py 10-211). -/
def circuitNoise (s : Setup) (inds : Dict String Nat) : NoiseModel where
  inds := inds
  xGate := lift (sqOp inds .X .DEPOLARIZE1 (plainArgs s "x_error_prob"))
  zGate := lift (sqOp inds .Z .DEPOLARIZE1 (plainArgs s "z_error_prob"))
  hadamard := lift (sqOp inds .H .DEPOLARIZE1 (plainArgs s "h_error_prob"))
  sGate := lift (sqOp inds .S .DEPOLARIZE1 (plainArgs s "s_error_prob"))
  sDagGate := lift (sqOp inds .S_DAG .DEPOLARIZE1 (plainArgs s "sdag_error_prob"))
  cphase := lift (tqOp inds .CZ .DEPOLARIZE2 (plainArgs s "cz_error_prob"))
  cnot := lift (tqOp inds .CX .DEPOLARIZE2 (plainArgs s "cnot_error_prob"))
  swap := lift (tqOp inds .SWAP .DEPOLARIZE2 (plainArgs s "swap_error_prob"))
  measure := measOp s inds .M .X_ERROR
  measureX := measOp s inds .MX .Z_ERROR
  measureY := measOp s inds .MY .Z_ERROR
  reset := lift (sqOp inds .R .X_ERROR (plainArgs s "reset_error_prob"))
  resetX := lift (sqOp inds .RX .Z_ERROR (plainArgs s "reset_error_prob"))
  resetY := lift (sqOp inds .RY .Z_ERROR (plainArgs s "reset_error_prob"))
  idle := lift (noiseOnly inds .DEPOLARIZE1 (plainArgs s "idle_error_prob"))
  incomingNoise := noIncoming

/-- `BiasedCircuitNoiseModel` (library.py 214-469).  `measure_y` really emits `MX` (lines
401-418). -/
def biasedNoise (s : Setup) (inds : Dict String Nat) : NoiseModel where
  inds := inds
  xGate := lift (sqOp inds .X .PAULI_CHANNEL_1 (biasedArgs s "x_error_prob" 1))
  zGate := lift (sqOp inds .Z .PAULI_CHANNEL_1 (biasedArgs s "z_error_prob" 1))
  hadamard := lift (sqOp inds .H .PAULI_CHANNEL_1 (biasedArgs s "h_error_prob" 1))
  sGate := lift (sqOp inds .S .PAULI_CHANNEL_1 (biasedArgs s "s_error_prob" 1))
  sDagGate := lift (sqOp inds .S_DAG .PAULI_CHANNEL_1 (biasedArgs s "sdag_error_prob" 1))
  cphase := lift (tqOp inds .CZ .PAULI_CHANNEL_2 (biasedArgs s "cz_error_prob" 2))
  cnot := lift (tqOp inds .CX .PAULI_CHANNEL_2 (biasedArgs s "cnot_error_prob" 2))
  swap := lift (tqOp inds .SWAP .PAULI_CHANNEL_2 (biasedArgs s "swap_error_prob" 2))
  measure := measOp s inds .M .X_ERROR
  measureX := measOp s inds .MX .Z_ERROR
  measureY := measOp s inds .MX .X_ERROR
  reset := lift (sqOp inds .R .X_ERROR (plainArgs s "reset_error_prob"))
  resetX := lift (sqOp inds .RX .Z_ERROR (plainArgs s "reset_error_prob"))
  resetY := lift (sqOp inds .RY .Z_ERROR (plainArgs s "reset_error_prob"))
  idle := lift (noiseOnly inds .PAULI_CHANNEL_1 (biasedArgs s "idle_error_prob" 1))
  incomingNoise := noIncoming

/-- `idle(qubits, duration)` of `DecoherenceNoiseModel` and `ExperimentalNoiseModel` (library.py
641-674, 853-885): parameters, assertion, channel per qubit. -/
def idleDuration (s : Setup) (inds : Dict String Nat) (dur : Rat) (c : Circuit) :
    List String → Except Err Circuit
  | [] => .ok c
  | q :: l =>
    match numParam s "T1" [q] with
    | .error e => .error e
    | .ok t1 =>
      match numParam s "T2" [q] with
      | .error e => .error e
      | .ok t2 =>
        if 0 < t1 ∧ 0 < t2 ∧ t2 < 2 * t1 then
          match idleErrorProbs t1 t2 dur with
          | .error e => .error e
          | .ok args =>
            match getInds inds [q] with
            | .error e => .error e
            | .ok is =>
              match appendOp c .PAULI_CHANNEL_1 is args with
              | .error e => .error e
              | .ok c' => idleDuration s inds dur c' l
        else .error .assertionError

/-- stim name of a gate, the key of `gate_durations`. -/
def gateName : Gate → String
  | .X => "X" | .Z => "Z" | .H => "H" | .S => "S" | .S_DAG => "S_DAG" | .I => "I"
  | .CZ => "CZ" | .CX => "CNOT" | .SWAP => "SWAP" | .M => "M" | .MX => "MX" | .MY => "MY"
  | .R => "R" | .RX => "RX" | .RY => "RY"
  | .DEPOLARIZE1 => "DEPOLARIZE1" | .DEPOLARIZE2 => "DEPOLARIZE2"
  | .X_ERROR => "X_ERROR" | .Z_ERROR => "Z_ERROR"
  | .PAULI_CHANNEL_1 => "PAULI_CHANNEL_1" | .PAULI_CHANNEL_2 => "PAULI_CHANNEL_2"
  | .TICK => "TICK" | .QUBIT_COORDS => "QUBIT_COORDS" | .DETECTOR => "DETECTOR"
  | .OBSERVABLE_INCLUDE => "OBSERVABLE_INCLUDE"

/-- `DecoherenceNoiseModel.generic_op` (library.py 481-510). -/
def genericOp (s : Setup) (inds : Dict String Nat) (sym : Bool) (g : Gate) (qs : List String) :
    Except Err Circuit :=
  match s.gateDuration (gateName g) with
  | .error e => .error e
  | .ok d =>
    if sym then
      match idleDuration s inds (d / 2) [] qs with
      | .error e => .error e
      | .ok c1 =>
        match getInds inds qs with
        | .error e => .error e
        | .ok is =>
          match appendOp c1 g is [] with
          | .error e => .error e
          | .ok c2 =>
            match idleDuration s inds (d / 2) [] qs with
            | .error e => .error e
            | .ok c3 => .ok (c2 ++ c3)
    else
      match getInds inds qs with
      | .error e => .error e
      | .ok is =>
        match appendOp [] g is [] with
        | .error e => .error e
        | .ok c2 =>
          match idleDuration s inds d [] qs with
          | .error e => .error e
          | .ok c3 => .ok (c2 ++ c3)

/-- The measurement loop of `DecoherenceNoiseModel` with symmetric noise (library.py 543-556). -/
def decMeasLoop (s : Setup) (inds : Dict String Nat) (g : Gate) :
    Circuit → List String → PyM MeasState Circuit
  | c, [] => pure c
  | c, q :: l => do
    MeasState.addMeas inds q
    let flag ← PyM.ofExcept (s.param "assign_error_flag" [q])
    let args ← if flag.truthy then PyM.ofExcept (plainArgs s "assign_error_prob" [q]) else pure []
    let is ← PyM.ofExcept (getInds inds [q])
    let c' ← PyM.ofExcept (appendOp c g is args)
    decMeasLoop s inds g c' l

/-- `DecoherenceNoiseModel.measure*` (library.py 536-566, 568-598, 600-630).  With
`symmetric_noise=False` the first measured qubit is recorded and then
`CircuitInstruction(name, targets=[qubit])` is called with the *label* of the qubit (line 564), which stim
rejects (`TypeError`/`ValueError`); the class is recorded as `valueError`. -/
def decMeas (s : Setup) (inds : Dict String Nat) (sym : Bool) (g : Gate) (qs : List String) :
    PyM MeasState Circuit := do
  let d ← PyM.ofExcept (s.gateDuration (gateName g))
  if sym then
    let c1 ← PyM.ofExcept (idleDuration s inds (d / 2) [] qs)
    let c2 ← decMeasLoop s inds g c1 qs
    let c3 ← PyM.ofExcept (idleDuration s inds (d / 2) [] qs)
    pure (c2 ++ c3)
  else
    match qs with
    | [] => pure []
    | q :: _ => do
      MeasState.addMeas inds q
      PyM.raise .valueError

/-- `DecoherenceNoiseModel` (library.py 472-677).  Its `idle` needs a duration, so the call
`model.idle(qubits)` of the circuit blocks is a `TypeError`. -/
def decoherenceNoise (s : Setup) (inds : Dict String Nat) (sym : Bool) : NoiseModel where
  inds := inds
  xGate := lift (genericOp s inds sym .X)
  zGate := lift (genericOp s inds sym .Z)
  hadamard := lift (genericOp s inds sym .H)
  sGate := lift (genericOp s inds sym .S)
  sDagGate := lift (genericOp s inds sym .S_DAG)
  cphase := lift (genericOp s inds sym .CZ)
  cnot := lift (genericOp s inds sym .CX)
  swap := lift (genericOp s inds sym .SWAP)
  measure := decMeas s inds sym .M
  measureX := decMeas s inds sym .MX
  measureY := decMeas s inds sym .MY
  reset := lift (genericOp s inds sym .R)
  resetX := lift (genericOp s inds sym .RX)
  resetY := lift (genericOp s inds sym .RY)
  idle := fun _ => PyM.raise .typeError
  incomingNoise := noIncoming

/-- `ExperimentalNoiseModel` (library.py 680-888): no `s_gate`/`s_dag_gate`; `idle` needs a
duration. -/
def experimentalNoise (s : Setup) (inds : Dict String Nat) : NoiseModel where
  inds := inds
  xGate := lift (sqOp inds .X .DEPOLARIZE1 (plainArgs s "x_error_prob"))
  zGate := lift (sqOp inds .Z .DEPOLARIZE1 (plainArgs s "z_error_prob"))
  hadamard := lift (sqOp inds .H .DEPOLARIZE1 (plainArgs s "h_error_prob"))
  sGate := fun _ => PyM.raise .notImplemented
  sDagGate := fun _ => PyM.raise .notImplemented
  cphase := lift (tqOp inds .CZ .DEPOLARIZE2 (plainArgs s "cz_error_prob"))
  cnot := lift (tqOp inds .CX .DEPOLARIZE2 (plainArgs s "cnot_error_prob"))
  swap := lift (tqOp inds .SWAP .DEPOLARIZE2 (plainArgs s "swap_error_prob"))
  measure := measOp s inds .M .X_ERROR
  measureX := measOp s inds .MX .Z_ERROR
  measureY := measOp s inds .MY .X_ERROR
  reset := lift (sqOp inds .R .X_ERROR (plainArgs s "reset_error_prob"))
  resetX := lift (sqOp inds .RX .Z_ERROR (plainArgs s "reset_error_prob"))
  resetY := lift (sqOp inds .RY .X_ERROR (plainArgs s "reset_error_prob"))
  idle := fun _ => PyM.raise .typeError
  incomingNoise := noIncoming

/-- `NoiselessModel` (library.py 891-980). -/
def noiseless (inds : Dict String Nat) : NoiseModel where
  inds := inds
  xGate := lift (plainOp inds .X)
  zGate := lift (plainOp inds .Z)
  hadamard := lift (plainOp inds .H)
  sGate := lift (plainOp inds .S)
  sDagGate := lift (plainOp inds .S_DAG)
  cphase := lift (plainOp inds .CZ)
  cnot := lift (plainOp inds .CX)
  swap := lift (plainOp inds .SWAP)
  measure := plainMeasLoop inds .M []
  measureX := plainMeasLoop inds .MX []
  measureY := plainMeasLoop inds .MY []
  reset := lift (plainOp inds .R)
  resetX := lift (plainOp inds .RX)
  resetY := lift (plainOp inds .RY)
  idle := lift (plainOp inds .I)
  incomingNoise := noIncoming

/-- `IncomingNoiseModel.incoming_noise` (library.py 991-1004). -/
def incomingNoiseOp (s : Setup) (inds : Dict String Nat) (qs : List String) : Except Err Circuit :=
  match getInds inds qs with
  | .error e => .error e
  | .ok is =>
    match noiseLoop .X_ERROR (plainArgs s "idle_error_prob") [] (singles qs is) with
    | .error e => .error e
    | .ok c => noiseLoop .Z_ERROR (plainArgs s "idle_error_prob") c (singles qs is)

/-- `IncomingNoiseModel` (library.py 983-1004). -/
def incoming (s : Setup) (inds : Dict String Nat) : NoiseModel :=
  { noiseless inds with incomingNoise := lift (incomingNoiseOp s inds) }

/-- `PhenomenologicalNoiseModel` (library.py 1007-1063). -/
def phenomenological (s : Setup) (inds : Dict String Nat) : NoiseModel :=
  { incoming s inds with
    measure := measOp s inds .M .X_ERROR
    measureX := measOp s inds .MX .Z_ERROR
    measureY := measOp s inds .MY .X_ERROR }

end NoiseModel
end SurfaceSim
