/-
Model of `merge_circuits` and `merge_tick_blocks` of `surface_sim/util/circuit_operations.py`.
-/
import Verif.Model.Stim
import Mathlib.Data.List.Sort

namespace SurfaceSim

/-- `a + b` / `a += b` on stim circuits: the instructions of `b` after those of `a`; stim fuses at the
seam only. -/
def Circuit.concat (a : Circuit) : Circuit → Circuit
  | [] => a
  | i :: r => Circuit.append a i ++ r

/-- `sum(circuits, start=stim.Circuit())`. -/
def Circuit.sum (l : List Circuit) : Circuit := l.foldl Circuit.concat []

namespace CircuitOps

/-- `instr.name`. -/
def stimName : Gate → String
  | .X => "X" | .Z => "Z" | .H => "H" | .S => "S" | .S_DAG => "S_DAG" | .I => "I"
  | .CZ => "CZ" | .CX => "CX" | .SWAP => "SWAP" | .M => "M" | .MX => "MX" | .MY => "MY"
  | .R => "R" | .RX => "RX" | .RY => "RY"
  | .DEPOLARIZE1 => "DEPOLARIZE1" | .DEPOLARIZE2 => "DEPOLARIZE2"
  | .X_ERROR => "X_ERROR" | .Z_ERROR => "Z_ERROR"
  | .PAULI_CHANNEL_1 => "PAULI_CHANNEL_1" | .PAULI_CHANNEL_2 => "PAULI_CHANNEL_2"
  | .TICK => "TICK" | .QUBIT_COORDS => "QUBIT_COORDS" | .DETECTOR => "DETECTOR"
  | .OBSERVABLE_INCLUDE => "OBSERVABLE_INCLUDE"

/-- The inner loop of `merge_circuits` (circuit_operations.py 55-62) over the instructions of one
circuit: current block id, the blocks, and the set of block ids with measurements (as a list). -/
def scan : Circuit → Nat → List (List Instr) → List Nat → List (List Instr) × List Nat
  | [], _, blocks, meas => (blocks, meas)
  | i :: c, id, blocks, meas =>
    if i.gate = .TICK then scan c (id + 1) blocks meas
    else
      scan c id (blocks.modify id (· ++ [i]))
        (if i.gate.isMeas ∧ id ∉ meas then meas ++ [id] else meas)

/-- The outer loop (circuit_operations.py 52-62). -/
def scanAll : List Circuit → List (List Instr) → List (List Nat) → List (List Instr) × List (List Nat)
  | [], blocks, meas => (blocks, meas)
  | c :: cs, blocks, meas =>
    let r := scan c 0 blocks []
    scanAll cs r.1 (meas ++ [r.2])

/-- `sorted(block, key=lambda x: x.name)` (circuit_operations.py 75), a stable sort. -/
def sortBlock (b : List Instr) : List Instr :=
  b.insertionSort fun i j => stimName i.gate ≤ stimName j.gate

/-- `stim.Circuit("\n".join(map(str, block)))` (line 81): parsing fuses equal neighbours. -/
def parse (b : List Instr) : Circuit := b.foldl Circuit.append []

/-- `stim.Circuit("TICK")`. -/
def tickCircuit : Circuit := [⟨.TICK, [], []⟩]

/-- Lines 80-84: every block gets a TICK, the last one loses it again, and everything is added up. -/
def assemble (blocks : List (List Instr)) : Circuit :=
  let merged := blocks.map fun b => Circuit.concat (parse b) tickCircuit
  Circuit.sum (merged.modify (merged.length - 1) List.dropLast)

/-- `merge_circuits` (circuit_operations.py 26-86).  The arguments are circuits, so the type check of
line 46 passes; `circuit.flattened()` is the circuit itself because there are no REPEAT blocks. -/
def mergeCircuits (cs : List Circuit) (checkMeas : Bool) : Except Err Circuit :=
  match cs with
  | [] => .error .valueError
  | c0 :: _ =>
    if cs.any fun c => c.numTicks ≠ c0.numTicks then .error .valueError
    else
      let r := scanAll cs (List.replicate (c0.numTicks + 1) []) []
      if checkMeas ∧ r.2.any fun m => decide (1 < m.length) then .error .valueError
      else
        -- the set of the single elements has more than one element
        let firsts := r.2.filterMap List.head?
        if checkMeas ∧ firsts.any fun a => firsts.any fun b => a ≠ b then .error .valueError
        else .ok (assemble (r.1.map sortBlock))

/-- Grouping of the blocks by their instruction names (circuit_operations.py 100-105): a dictionary in
insertion order. -/
def groupBlocks : List Circuit → Dict (List Gate) (List Circuit) → Dict (List Gate) (List Circuit)
  | [], d => d
  | b :: bs, d =>
    let sig := b.map Instr.gate
    groupBlocks bs (d.set sig ((d.get? sig).getD [] ++ [b]))

/-- `merge_tick_blocks` (circuit_operations.py 89-115). -/
def mergeTickBlocks (blocks : List Circuit) : Except Err Circuit :=
  match blocks with
  | [] => .error .valueError
  | b0 :: bs =>
    if bs.any fun b => b.length ≠ b0.length then .error .valueError
    else
      let groups := (groupBlocks blocks []).map Prod.snd
      .ok <| (List.range b0.length).foldl (fun acc t =>
        groups.foldl (fun acc g =>
          g.foldl (fun acc b => Circuit.concat acc ((b.drop t).take 1)) acc) acc) []

end CircuitOps
end SurfaceSim
