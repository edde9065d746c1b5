/-
Meaning of circuits: Pauli-frame semantics.

A circuit is flattened to elementary operations (noise channels, TICKs and coordinates have no
effect).  A state carries, for each qubit, whether the actual state differs from the reference state
by an X (`x q = 1`) and/or a Z (`z q = 1`) factor; the reference is the same circuit without Pauli gates and
with all measurements giving their reference value.  This is the semantics of stim's frame
simulator: each measurement multiplies the frame by a random Z (the measured Pauli), each reset
replaces the frame of the qubit by a random power of the stabilizing Pauli.  The random bits are the
stream `ρ`, and `ζ` for the start; theorems quantify over all of them.  `C51_...` proves this semantics from quantum
mechanics.
-/
import Verif.Model.Stim
import Mathlib.Data.ZMod.Basic

namespace SurfaceSim.Spec
open SurfaceSim

/-- Elementary operations on qubits of type `Q`. -/
inductive Op (Q : Type) where
  | x (q : Q) | z (q : Q) | h (q : Q) | s (q : Q) | sdag (q : Q)
  | cz (a b : Q) | cx (a b : Q) | swap (a b : Q)
  | m (q : Q) | mx (q : Q) | my (q : Q)
  | r (q : Q) | rx (q : Q) | ry (q : Q)
  | det (recs : List Int)
  | obs (k : Rat) (recs : List Int)
  deriving DecidableEq

/-- Two-qubit operations act on two different qubits. -/
def Op.Distinct {Q : Type} : Op Q → Prop
  | .cz a b | .cx a b | .swap a b => a ≠ b
  | _ => True

/-- Targets of a two-qubit instruction, in pairs. -/
def pairs (l : List Nat) : List (Nat × Nat) := (pairUp l).getD []

/-- Observable index given as instruction argument. -/
def obsIndex : List Arg → Rat
  | .num q :: _ => q
  | _ => 0

/-- Elementary operations of an instruction. -/
def instrOps (i : Instr) : List (Op Nat) :=
  match i.gate with
  | .X => i.qubits.map .x
  | .Z => i.qubits.map .z
  | .H => i.qubits.map .h
  | .S => i.qubits.map .s
  | .S_DAG => i.qubits.map .sdag
  | .CZ => (pairs i.qubits).map fun p => .cz p.1 p.2
  | .CX => (pairs i.qubits).map fun p => .cx p.1 p.2
  | .SWAP => (pairs i.qubits).map fun p => .swap p.1 p.2
  | .M => i.qubits.map .m
  | .MX => i.qubits.map .mx
  | .MY => i.qubits.map .my
  | .R => i.qubits.map .r
  | .RX => i.qubits.map .rx
  | .RY => i.qubits.map .ry
  | .DETECTOR => [.det i.recs]
  | .OBSERVABLE_INCLUDE => [.obs (obsIndex i.args) i.recs]
  | _ => []

/-- Elementary operations of a circuit, in order. -/
def ops (c : Circuit) : List (Op Nat) := c.flatMap instrOps

/-- State of the frame simulation.  `recs`, `dets` are newest first. -/
structure FState (Q : Type) where
  x : Q → ZMod 2
  z : Q → ZMod 2
  recs : List (ZMod 2)
  dets : List (ZMod 2)
  obs : List (Rat × ZMod 2)
  rnd : Nat

/-- No difference to the reference, nothing measured. -/
def FState.init (Q : Type) : FState Q := ⟨fun _ => 0, fun _ => 0, [], [], [], 0⟩

/-- Start of a circuit: all qubits are in `|0⟩`, which a Z does not change, so the frame has Z factors `ζ` at random. -/
def FState.start {Q : Type} (ζ : Q → ZMod 2) : FState Q := { FState.init Q with z := ζ }

/-- The record entry `rec[k]` (`k < 0` counts from the end); 0 outside the record. -/
def lookback (recs : List (ZMod 2)) (k : Int) : ZMod 2 := recs.getD (-k - 1).toNat 0

/-- XOR of record entries. -/
def parity (recs : List (ZMod 2)) (ks : List Int) : ZMod 2 := (ks.map (lookback recs)).sum

variable {Q : Type} [DecidableEq Q]

/-- One elementary operation. -/
def step (ρ : Nat → ZMod 2) (st : FState Q) : Op Q → FState Q
  | .x q => { st with x := Function.update st.x q (st.x q + 1) }
  | .z q => { st with z := Function.update st.z q (st.z q + 1) }
  | .h q => { st with x := Function.update st.x q (st.z q), z := Function.update st.z q (st.x q) }
  | .s q => { st with z := Function.update st.z q (st.z q + st.x q) }
  | .sdag q => { st with z := Function.update st.z q (st.z q + st.x q) }
  | .cz a b => { st with
      z := Function.update (Function.update st.z a (st.z a + st.x b)) b (st.z b + st.x a) }
  | .cx a b => { st with
      x := Function.update st.x b (st.x b + st.x a), z := Function.update st.z a (st.z a + st.z b) }
  | .swap a b => { st with
      x := Function.update (Function.update st.x a (st.x b)) b (st.x a)
      z := Function.update (Function.update st.z a (st.z b)) b (st.z a) }
  | .m q => { st with
      recs := st.x q :: st.recs, z := Function.update st.z q (st.z q + ρ st.rnd), rnd := st.rnd + 1 }
  | .mx q => { st with
      recs := st.z q :: st.recs, x := Function.update st.x q (st.x q + ρ st.rnd), rnd := st.rnd + 1 }
  | .my q => { st with
      recs := (st.x q + st.z q) :: st.recs
      x := Function.update st.x q (st.x q + ρ st.rnd)
      z := Function.update st.z q (st.z q + ρ st.rnd), rnd := st.rnd + 1 }
  | .r q => { st with
      x := Function.update st.x q 0, z := Function.update st.z q (ρ st.rnd), rnd := st.rnd + 1 }
  | .rx q => { st with
      x := Function.update st.x q (ρ st.rnd), z := Function.update st.z q 0, rnd := st.rnd + 1 }
  | .ry q => { st with
      x := Function.update st.x q (ρ st.rnd), z := Function.update st.z q (ρ st.rnd), rnd := st.rnd + 1 }
  | .det ks => { st with dets := parity st.recs ks :: st.dets }
  | .obs k ks => { st with obs := (k, parity st.recs ks) :: st.obs }

/-- Run a list of operations. -/
def run (ρ : Nat → ZMod 2) (st : FState Q) (l : List (Op Q)) : FState Q := l.foldl (step ρ) st

/-- Detector values of a circuit, in order of definition. -/
def detectors (ζ ρ : Nat → ZMod 2) (c : Circuit) : List (ZMod 2) :=
  (run ρ (FState.start ζ) (ops c)).dets.reverse

/-- Observable values (index, parity) in order of definition. -/
def observables (ζ ρ : Nat → ZMod 2) (c : Circuit) : List (Rat × ZMod 2) :=
  (run ρ (FState.start ζ) (ops c)).obs.reverse

/-- Is it a gate X or Z? -/
def Op.isFlip : Op Q → Bool
  | .x _ | .z _ => true
  | _ => false

/-- The operations without the gates X and Z. -/
def withoutFlips (l : List (Op Q)) : List (Op Q) := l.filter fun op => !op.isFlip

/-- Sum of the values of lists of the same length. -/
def addLists (a b : List (ZMod 2)) : List (ZMod 2) := List.zipWith (· + ·) a b

end SurfaceSim.Spec
