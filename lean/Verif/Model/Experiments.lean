/-
Model of `surface_sim/experiments/*.py` and of `merge_qec_rounds`, `merge_log_meas`
(util/circuit_operations.py 118-327).

Checks that an argument has the right python type are the types of the model.
-/
import Verif.Model.Blocks

namespace SurfaceSim.Experiments
open SurfaceSim Blocks

/-! ### Merging the blocks of several layouts -/

/-- The first computation of every generator; `none` if one of the generators is exhausted, after the
ones before it have been advanced (`zip`). -/
def nextAll : List Gen → PyM MeasState (Option (List Circuit × List Gen))
  | [] => pure (some ([], []))
  | [] :: _ => pure none
  | (b :: g) :: gs => do
    let c ← b
    match ← nextAll gs with
    | none => pure none
    | some r => pure (some (c :: r.1, g :: r.2))

/-- The body of the merging loop (circuit_operations.py 183-190, 287-294). -/
def mergeStep (circuit : Circuit) (blocks : List Circuit) : Except Err Circuit :=
  match CircuitOps.mergeTickBlocks blocks with
  | .error e => .error e
  | .ok [] => .ok circuit
  | .ok (i :: m) => if i.gate = .TICK then .ok (circuit.append i) else .ok (circuit.concat (i :: m))

/-- The merging loop (circuit_operations.py 176-190, 280-294).  `fuel` bounds the number of rounds; the
length of the first generator is enough. -/
def mergeLoop : Nat → List Gen → Circuit → Call1
  | 0, _, circuit => pure circuit
  | fuel + 1, gens, circuit => do
    match ← nextAll gens with
    | none => pure circuit
    | some r =>
      let circuit ← PyM.ofExcept (mergeStep circuit r.1)
      mergeLoop fuel r.2 circuit

/-- `for blocks in zip(*generators)`: nothing happens without generators. -/
def mergeGens : List Gen → Call1
  | [] => pure []
  | g :: gs => mergeLoop (g.length + 1) (g :: gs) []

/-- The ancillas of all layouts. -/
def allAnc (ls : List Layout) : Except Err (List String) :=
  match mapExcept ls ancQubits with
  | .error e => .error e
  | .ok r => .ok r.flatten

/-- The check of `anc_detectors` (circuit_operations.py 171-174, 275-278). -/
def checkAnc (ls : List Layout) (ancDetectors : Option (List String)) : Except Err Unit :=
  match ancDetectors with
  | none => .ok ()
  | some sel =>
    match allAnc ls with
    | .error e => .error e
    | .ok anc => if NoiseModel.strictSuperset sel anc then .error .valueError else .ok ()

/-- `merge_qec_rounds` (circuit_operations.py 118-197). -/
def mergeQecRounds {cfg : Detectors.Config} (iter : Layout → Bool → Gen) (ls : List Layout)
    (reset : Bool) (ancDetectors : Option (List String)) : PyM (Sim cfg) Circuit := do
  PyM.ofExcept (checkAnc ls ancDetectors)
  let circuit ← onModel (mergeGens (ls.map fun l => iter l reset))
  let dets ← onDets fun getRec => Detectors.buildFromAnc getRec reset ancDetectors
  return circuit.concat dets

/-- `all_stabs` and `all_anc_support` (circuit_operations.py 296-304). -/
def allSupport : List (Layout × Bool) → List String → Dict String (List String) →
    Except Err (List String × Dict String (List String))
  | [], stabs, supp => .ok (stabs, supp)
  | (l, r) :: ls, stabs, supp =>
    match stabQubits l (stabType r) with
    | .error e => .error e
    | .ok st =>
      match support l st with
      | .error e => .error e
      | .ok sp => allSupport ls (stabs ++ st) (supp.update sp)

/-- The observables of one layout (circuit_operations.py 317-325). -/
def layoutObservables (k numLogs : Nat) (ops : Dict String (List String)) :
    List (String × Nat) → Circuit → Call1
  | [], circuit => pure circuit
  | (lab, i) :: labs, circuit => do
    let qs ← PyM.ofExcept (ops.getE lab)
    let obs ← observable (k * numLogs + i) qs
    layoutObservables k numLogs ops labs (circuit.append obs)

/-- The observables of all layouts (circuit_operations.py 315-325). -/
def allObservables : List ((Layout × Bool) × Nat) → Circuit → Call1
  | [], circuit => pure circuit
  | ((l, r), k) :: ls, circuit => do
    let c ← layoutObservables k l.logQubits.length (if r then l.logX else l.logZ) l.logQubits.zipIdx
      circuit
    allObservables ls c

/-- `merge_log_meas` (circuit_operations.py 200-327). -/
def mergeLogMeas {cfg : Detectors.Config} (iter : Layout → Bool → Gen) (ls : List Layout)
    (rotBases : List Bool) (reset : Bool) (ancDetectors : Option (List String)) :
    PyM (Sim cfg) Circuit := do
  if rotBases.length ≠ ls.length then PyM.raise .valueError
  else
    PyM.ofExcept (checkAnc ls ancDetectors)
    let circuit ← onModel (mergeGens ((ls.zip rotBases).map fun lr => iter lr.1 lr.2))
    let ss ← PyM.ofExcept (allSupport (ls.zip rotBases) [] [])
    let dets ← onDets fun getRec => Detectors.buildFromData getRec ss.2 reset ss.1 ancDetectors
    onModel (allObservables (ls.zip rotBases).zipIdx (circuit.concat dets))

/-! ### Experiments -/

/-- The blocks imported by an experiment module. -/
structure Family (cfg : Detectors.Config) where
  init : Layout → Dict String Int → Bool → PyM (Sim cfg) Circuit
  round : Layout → Bool → Option (List String) → PyM (Sim cfg) Circuit
  meas : Layout → Bool → Bool → Option (List String) → PyM (Sim cfg) Circuit

/-- Blocks of experiments/rot_surface_code_css.py. -/
def rotCss (cfg : Detectors.Config) (o : SetOrder) (nm : NoiseModel) : Family cfg :=
  ⟨fun l => initQubits o nm l,
   fun l reset => qecRound (cssIter "rotated_surface_code" o nm l reset) l reset,
   fun l => logMeas nm l⟩

/-- Blocks of experiments/unrot_surface_code_css.py. -/
def unrotCss (cfg : Detectors.Config) (o : SetOrder) (nm : NoiseModel) : Family cfg :=
  ⟨fun l => initQubits o nm l,
   fun l reset => qecRound (cssIter "unrotated_surface_code" o nm l reset) l reset,
   fun l => logMeas nm l⟩

/-- Blocks of experiments/rot_surface_code_css_pipelined.py. -/
def rotCssPipelined (cfg : Detectors.Config) (o : SetOrder) (nm : NoiseModel) : Family cfg :=
  ⟨fun l => initQubits o nm l,
   fun l reset => qecRound (cssPipeIter o nm l reset) l reset,
   fun l => logMeas nm l⟩

/-- Blocks of experiments/rot_surface_code_xzzx.py. -/
def xzzx (cfg : Detectors.Config) (o : SetOrder) (nm : NoiseModel) : Family cfg :=
  ⟨fun l => initQubitsXzzx o nm l,
   fun l reset => qecRound (xzzxIter o nm l reset) l reset,
   fun l => logMeasXzzx o nm l⟩

/-- Blocks of experiments/rot_surface_code_xzzx_pipelined.py. -/
def xzzxPipelined (cfg : Detectors.Config) (o : SetOrder) (nm : NoiseModel) : Family cfg :=
  ⟨fun l => initQubitsXzzx o nm l,
   fun l reset => qecRound (xzzxPipeIter o nm l reset) l reset,
   fun l => logMeasXzzx o nm l⟩

variable {cfg : Detectors.Config}

/-- `experiment += block`. -/
def addTo (experiment : Circuit) (block : PyM (Sim cfg) Circuit) : PyM (Sim cfg) Circuit := do
  let c ← block
  return experiment.concat c

/-- `for x in l: experiment += block(x)`. -/
def addAll {α : Type} (experiment : Circuit) :
    List α → (α → PyM (Sim cfg) Circuit) → PyM (Sim cfg) Circuit
  | [], _ => pure experiment
  | x :: l, f => do
    let e ← addTo experiment (f x)
    addAll e l f

/-- `anc_detectors` with its default (rot_surface_code_css.py 70-71). -/
def ancDefault (ls : List Layout) (ancDetectors : Option (List String)) : Except Err (List String) :=
  match ancDetectors with
  | some sel => .ok sel
  | none => allAnc ls

/-- `set(anc_detectors).intersection(stab_qubits)` of the layouts (rot_surface_code_css.py 83-85,
292-296). -/
def firstDets (o : SetOrder) (ls : List Layout) (rotBasis : Bool) (sel : List String) :
    Except Err (List String) :=
  match mapExcept ls fun l => stabQubits l (stabType rotBasis) with
  | .error e => .error e
  | .ok r => .ok (o.ord (inter (setOf sel) r.flatten))

/-- `model.new_circuit()`, `detectors.new_circuit()` and the coordinates
(rot_surface_code_css.py 73-77). -/
def start (nm : NoiseModel) (ls : List Layout) : PyM (Sim cfg) Circuit := do
  onModel (MeasState.newCircuit nm.inds)
  onDets fun _ => Detectors.newCircuit cfg
  let c ← PyM.ofExcept (Blocks.qubitCoords nm ls)
  return Circuit.concat [] c

/-- The body of the loop over the rounds of a memory experiment (rot_surface_code_css.py 81-89). -/
def memoryRound (fam : Family cfg) (o : SetOrder) (l : Layout) (rotBasis reset : Bool)
    (sel : List String) (gauge : Bool) (r : Nat) : PyM (Sim cfg) Circuit := do
  if r = 0 ∧ !gauge then
    let first ← PyM.ofExcept (firstDets o [l] rotBasis sel)
    fam.round l reset (some first)
  else fam.round l reset (some sel)

/-- `memory_experiment` of all modules but the Google one (rot_surface_code_css.py 20-95,
unrot_surface_code_css.py 21-96, rot_surface_code_css_pipelined.py 16-89, rot_surface_code_xzzx.py 14-87,
rot_surface_code_xzzx_pipelined.py 14-87). -/
def memory (fam : Family cfg) (o : SetOrder) (nm : NoiseModel) (l : Layout) (numRounds : Int)
    (dataInit : Dict String Int) (rotBasis reset : Bool) (ancDetectors : Option (List String))
    (gauge : Bool) : PyM (Sim cfg) Circuit := do
  if numRounds < 0 then PyM.raise .valueError
  else
    let sel ← PyM.ofExcept (ancDefault [l] ancDetectors)
    let e ← start nm [l]
    let e ← addTo e (fam.init l dataInit rotBasis)
    let e ← addAll e (List.range numRounds.toNat) (memoryRound fam o l rotBasis reset sel gauge)
    addTo e (fam.meas l rotBasis reset (some sel))

/-- The first detectors of the experiments with gates (rot_surface_code_css.py 171-175). -/
def firstSel (o : SetOrder) (ls : List Layout) (rotBasis : Bool) (sel : List String) (gauge : Bool) :
    Except Err (List String) :=
  if gauge then .ok sel else firstDets o ls rotBasis sel

/-- One gate of a repeated-gate experiment followed by its rounds (rot_surface_code_css.py 179-182). -/
def gateAndRounds (gate : PyM (Sim cfg) Circuit) (rounds : Nat) (round : PyM (Sim cfg) Circuit)
    (e : Circuit) : PyM (Sim cfg) Circuit := do
  let e ← addTo e gate
  addAll e (List.range rounds) fun _ => round

/-- `for _ in range(num_gates)`. -/
def repeatGate (gate : PyM (Sim cfg) Circuit) (rounds : Nat) (round : PyM (Sim cfg) Circuit) :
    Nat → Circuit → PyM (Sim cfg) Circuit
  | 0, e => pure e
  | n + 1, e => do
    let e ← gateAndRounds gate rounds round e
    repeatGate gate rounds round n e

/-- `repeated_s_experiment` (rot_surface_code_css.py 98-187, unrot_surface_code_css.py 99-188,
rot_surface_code_css_pipelined.py 92-181). -/
def repeatedS (fam : Family cfg) (o : SetOrder) (nm : NoiseModel) (l : Layout)
    (numGates numRounds : Int) (dataInit : Dict String Int) (rotBasis reset : Bool)
    (ancDetectors : Option (List String)) (gauge : Bool) : PyM (Sim cfg) Circuit := do
  if numRounds < 0 then PyM.raise .valueError
  else if numGates < 0 ∨ numGates % 2 = 1 then PyM.raise .valueError
  else
    let sel ← PyM.ofExcept (ancDefault [l] ancDetectors)
    let e ← start nm [l]
    let e ← addTo e (fam.init l dataInit rotBasis)
    let first ← PyM.ofExcept (firstSel o [l] rotBasis sel gauge)
    let e ← addTo e (fam.round l reset (some first))
    let e ← repeatGate (transS o nm l) numRounds.toNat (fam.round l reset (some sel)) numGates.toNat e
    addTo e (fam.meas l rotBasis reset (some sel))

/-- `repeated_h_experiment` (unrot_surface_code_css.py 191-282). -/
def repeatedH (fam : Family cfg) (o : SetOrder) (nm : NoiseModel) (l : Layout)
    (numGates numRounds : Int) (dataInit : Dict String Int) (rotBasis reset : Bool)
    (ancDetectors : Option (List String)) (gauge : Bool) : PyM (Sim cfg) Circuit := do
  if numRounds < 0 then PyM.raise .valueError
  else if numGates < 0 then PyM.raise .valueError
  else
    let sel ← PyM.ofExcept (ancDefault [l] ancDetectors)
    let e ← start nm [l]
    let e ← addTo e (fam.init l dataInit rotBasis)
    let first ← PyM.ofExcept (firstSel o [l] rotBasis sel gauge)
    let e ← addTo e (fam.round l reset (some first))
    let e ← repeatGate (transH o nm l) numRounds.toNat (fam.round l reset (some sel)) numGates.toNat e
    addTo e (fam.meas l (if numGates % 2 = 0 then rotBasis else !rotBasis) reset (some sel))

/-- The loop over the gates of `repeated_cnot_experiment` (rot_surface_code_css.py 308-324): number of
gates done, number of gates left, current control and target. -/
def cnotLoop (o : SetOrder) (nm : NoiseModel) (round : List Layout → PyM (Sim cfg) Circuit)
    (alternating : Bool) (rounds : Nat) :
    Nat → Nat → Layout × Layout → Circuit → PyM (Sim cfg) (Circuit × (Layout × Layout))
  | _, 0, ct, e => pure (e, ct)
  | k, n + 1, ct, e => do
    let ct := if alternating ∧ k % 2 = 1 then (ct.2, ct.1) else ct
    let e ← gateAndRounds (transCnot o nm ct.1 ct.2) rounds (round [ct.1, ct.2]) e
    cnotLoop o nm round alternating rounds (k + 1) n ct e

/-- `repeated_cnot_experiment` (rot_surface_code_css.py 190-335, unrot_surface_code_css.py 285-430);
`iter` is `qec_round_iterator`. -/
def repeatedCnot (iter : Layout → Bool → Gen) (o : SetOrder) (nm : NoiseModel)
    (lc lt : Layout) (numGates numRounds : Int) (dataInit : Dict String Int) (orientation : String)
    (rotBasis reset : Bool) (ancDetectors : Option (List String)) (gauge : Bool) :
    PyM (Sim cfg) Circuit := do
  if numRounds < 0 then PyM.raise .valueError
  else if numGates < 0 then PyM.raise .valueError
  else
    let sel ← PyM.ofExcept (ancDefault [lc, lt] ancDetectors)
    if orientation ≠ "constant" ∧ orientation ≠ "alternating" then PyM.raise .typeError
    else
      let qc ← PyM.ofExcept (lc.getQubits [])
      let qt ← PyM.ofExcept (lt.getQubits [])
      let e ← start nm [lc, lt]
      let ic ← initQubits o nm lc (dataInit.filter fun kv => kv.1 ∈ qc) rotBasis
      let it ← initQubits o nm lt (dataInit.filter fun kv => kv.1 ∈ qt) rotBasis
      let m ← PyM.ofExcept (CircuitOps.mergeCircuits [ic, it] true)
      let e := e.concat m
      let first ← PyM.ofExcept (firstSel o [lc, lt] rotBasis sel gauge)
      let e ← addTo e (mergeQecRounds iter [lc, lt] reset (some first))
      let r ← cnotLoop o nm (fun ls => mergeQecRounds iter ls reset (some sel))
        (orientation = "alternating") numRounds.toNat 0 numGates.toNat (lc, lt) e
      addTo r.1 (mergeLogMeas (fun l b => logMeasIter nm l b) [r.2.1, r.2.2] [rotBasis, rotBasis] reset
        (some sel))

/-- The body of the loop over the rounds of the Google memory experiment
(rot_surface_code_xzzx_google.py 82-90). -/
def googleMemoryRound (o : SetOrder) (nm : NoiseModel) (l : Layout) (rotBasis : Bool)
    (sel : List String) (gauge : Bool) (r : Nat) : PyM (Sim cfg) Circuit := do
  if r = 0 ∧ !gauge then
    let first ← PyM.ofExcept (firstDets o [l] rotBasis sel)
    googleRound o nm l (some first)
  else googleRound o nm l (some sel)

/-- `memory_experiment` of rot_surface_code_xzzx_google.py 15-96. -/
def googleMemory (o : SetOrder) (nm : NoiseModel) (l : Layout) (numRounds : Int)
    (dataInit : Dict String Int) (rotBasis : Bool) (ancDetectors : Option (List String))
    (gauge : Bool) : PyM (Sim cfg) Circuit := do
  if numRounds ≤ 0 then PyM.raise .valueError
  else
    let sel ← PyM.ofExcept (ancDefault [l] ancDetectors)
    let e ← start nm [l]
    let e ← addTo e (initQubitsXzzx o nm l dataInit rotBasis)
    if numRounds = 1 then
      let first ← PyM.ofExcept (firstSel o [l] rotBasis sel gauge)
      addTo e (googleFinal o nm l (some first) rotBasis)
    else
      let e ← addAll e (List.range (numRounds.toNat - 1)) (googleMemoryRound o nm l rotBasis sel gauge)
      addTo e (googleFinal o nm l (some sel) rotBasis)

end SurfaceSim.Experiments
