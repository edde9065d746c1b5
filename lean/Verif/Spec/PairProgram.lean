/-
Specification of programs of logical operations on two codes.
-/
import Verif.Spec.CnotExp
import Verif.Model.Experiments

namespace SurfaceSim.Spec
open SurfaceSim Blocks Experiments

/-- An operation on two codes: a merged QEC round, a transversal CNOT gate from the first to the second code, or these with the
codes exchanged, or a logical X or Z on the first or on the second code. -/
inductive PairStep where
  | round (exchanged : Bool)
  | cnot (exchanged : Bool)
  | x (second : Bool)
  | z (second : Bool)
  deriving DecidableEq, Repr

/-- The number of time steps of an operation. -/
def PairStep.ticks (reset : Bool) : PairStep → Nat
  | .round _ => if reset then 10 else 9
  | _ => 1

/-- Whether an operation acts on the qubits of both codes. -/
def PairStep.onBoth : PairStep → Bool
  | .round _ | .cnot _ => true
  | .x _ | .z _ => false

/-- What an operation does to the values of the logical operators of the two codes (X if `rb`, Z otherwise). -/
def PairStep.act (rb : Bool) : PairStep → ZMod 2 × ZMod 2 → ZMod 2 × ZMod 2
  | .round _, p => p
  | .cnot d, p => afterCnots rb [d] p
  | .x second, p => if rb then p else if second then (p.1, p.2 + 1) else (p.1 + 1, p.2)
  | .z second, p => if rb then (if second then (p.1, p.2 + 1) else (p.1 + 1, p.2)) else p

/-- The values after a program. -/
def afterSteps (rb : Bool) (steps : List PairStep) (p : ZMod 2 × ZMod 2) : ZMod 2 × ZMod 2 :=
  steps.foldl (fun p x => x.act rb p) p

/-- The rounds of a program, `true` for those with the codes exchanged. -/
def roundsOf (steps : List PairStep) : List Bool :=
  steps.filterMap fun x => match x with
    | .round d => some d
    | _ => none

/-- All CNOT gates between two rounds have the same direction; `last` is the direction of the gates since the last round. -/
def GatesApart : Option Bool → List PairStep → Prop
  | _, [] => True
  | _, .round _ :: xs => GatesApart none xs
  | last, .cnot d :: xs => (last = none ∨ last = some d) ∧ GatesApart (some d) xs
  | last, .x _ :: xs => GatesApart last xs
  | last, .z _ :: xs => GatesApart last xs

/-- The layouts in the given order, or exchanged. -/
def inOrder (lc lt : Layout) (exchanged : Bool) : List Layout := if exchanged then [lt, lc] else [lc, lt]

/-- The call for an operation. -/
def PairStep.call {α : Type} (round : List Layout → α) (cnot : Layout → Layout → α) (x z : Layout → α) (lc lt : Layout) : PairStep → α
  | .round d => round (inOrder lc lt d)
  | .cnot d => if d then cnot lt lc else cnot lc lt
  | .x second => x (if second then lt else lc)
  | .z second => z (if second then lt else lc)

/-- An experiment on two codes as in `repeated_cnot_experiment`, with anything between the first round and the measurement of the
data qubits. -/
def pairExperiment {cfg : Detectors.Config} (iter : Layout → Bool → Gen) (o : SetOrder) (nm : NoiseModel) (lc lt : Layout)
    (dataInit : Dict String Int) (rb reset : Bool) (ancDetectors : Option (List String)) (gauge : Bool)
    (body : List String → Circuit → PyM (Sim cfg) Circuit) (final : Bool) : PyM (Sim cfg) Circuit := do
  let sel ← PyM.ofExcept (ancDefault [lc, lt] ancDetectors)
  let qc ← PyM.ofExcept (lc.getQubits [])
  let qt ← PyM.ofExcept (lt.getQubits [])
  let e ← start nm [lc, lt]
  let ic ← initQubits o nm lc (dataInit.filter fun kv => kv.1 ∈ qc) rb
  let it ← initQubits o nm lt (dataInit.filter fun kv => kv.1 ∈ qt) rb
  let m ← PyM.ofExcept (CircuitOps.mergeCircuits [ic, it] true)
  let first ← PyM.ofExcept (firstSel o [lc, lt] rb sel gauge)
  let e ← addTo (e.concat m) (mergeQecRounds iter [lc, lt] reset (some first))
  let e ← body sel e
  addTo e (mergeLogMeas (fun l b => logMeasIter nm l b) (inOrder lc lt final) [rb, rb] reset (some sel))

/-- The experiment of a user who prepares both codes, does a merged QEC round, then the operations `steps` in their order, and
measures the data qubits of both codes. -/
def pairProgram {cfg : Detectors.Config} (iter : Layout → Bool → Gen) (o : SetOrder) (nm : NoiseModel) (lc lt : Layout)
    (dataInit : Dict String Int) (rb reset : Bool) (ancDetectors : Option (List String)) (gauge : Bool) (steps : List PairStep)
    (final : Bool) : PyM (Sim cfg) Circuit :=
  pairExperiment iter o nm lc lt dataInit rb reset ancDetectors gauge (fun sel e => addAll e steps
    (PairStep.call (fun ls => mergeQecRounds iter ls reset (some sel)) (transCnot o nm) (fun l => onModel (logX o nm l))
      (fun l => onModel (logZ o nm l)) lc lt)) final

end SurfaceSim.Spec
