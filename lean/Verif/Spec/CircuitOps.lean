/-
Specification vocabulary for circuit merging.
-/
import Verif.Spec.Noise

namespace SurfaceSim.Spec
open SurfaceSim

/-- Qubits measured by a circuit, in order: what the entries of stim's measurement record refer to. -/
def measOrder (c : Circuit) : List Nat := c.flatMap fun i => if i.gate.isMeas then i.qubits else []

/-- The TICK blocks of a circuit (without the TICKs). -/
def tickBlocks : Circuit → List Circuit
  | [] => [[]]
  | i :: c =>
    if i.gate = .TICK then [] :: tickBlocks c
    else
      match tickBlocks c with
      | b :: bs => (i :: b) :: bs
      | [] => [[i]]

/-- All two-qubit instructions have complete pairs (every instruction stim accepts). -/
def WellPaired (c : Circuit) : Prop := ∀ i ∈ c, i.gate.isTwoQubit = true → i.qubits.length % 2 = 0

end SurfaceSim.Spec
