/-
Specification of how often qubits are used between two TICKs.
-/
import Verif.Spec.CircuitOps
import Verif.Spec.Faithful
import Verif.Model.Layout

namespace SurfaceSim.Spec
open SurfaceSim

/-- The instructions that do something: no noise and no annotations. -/
def acts (g : Gate) : Bool := !g.isNoise && decide (g ∉ [.TICK, .QUBIT_COORDS, .DETECTOR, .OBSERVABLE_INCLUDE])

/-- The qubits of the instructions with `p`, with repetitions: with `p = acts` the qubits on which a circuit does something
other than noise, with `p = Gate.isNoise` those on which it has noise. -/
def used (p : Gate → Bool) (c : Circuit) : List Nat := c.flatMap fun i => if p i.gate then i.qubits else []

/-- Between TICKs every qubit of `qs` is in exactly one instruction with `p` (at most one if idling is not `explicit`), `n`
times.  No other instruction has `p`: there is at most a step before (if `pre`) and a step afterwards (if `post`) without
any of them. -/
def EachOnce (p : Gate → Bool) (explicit : Bool) (qs : List Nat) (pre : Bool) (n : Nat) (post : Bool) (c : Circuit) : Prop :=
  ∃ bs : List (List Nat), (tickBlocks c).map (used p) = (if pre then [[]] else []) ++ bs ++ (if post then [[]] else []) ∧
    bs.length = n ∧ ∀ u ∈ bs, if explicit then u.Perm qs else u.Subperm qs

/-- The methods of the noise model have exactly the qubits they are given in instructions with `p`, in this order.  The
same for `idle` if `explicit`, otherwise it has no such instruction. -/
structure Uses (p : Gate → Bool) (explicit : Bool) (nm : NoiseModel) : Prop where
  marks : ∀ g ∈ [Gate.TICK, .QUBIT_COORDS, .DETECTOR, .OBSERVABLE_INCLUDE], p g = false
  gates : ∀ f ∈ [nm.xGate, nm.zGate, nm.hadamard, nm.sGate, nm.sDagGate, nm.cphase, nm.cnot, nm.swap,
    nm.measure, nm.reset], ∀ qs s c s', f qs s = (.ok c, s') →
      (∀ i ∈ c, i.gate ≠ .TICK) ∧ used p c = qs.map (ind nm.inds)
  idle : ∀ qs s c s', nm.idle qs s = (.ok c, s') →
    (∀ i ∈ c, i.gate ≠ .TICK) ∧ used p c = if explicit then qs.map (ind nm.inds) else []
  incoming : ∀ qs s c s', nm.incomingNoise qs s = (.ok c, s') → (∀ i ∈ c, i.gate ≠ .TICK) ∧ used p c = []

/-- The block `b` has every qubit of `l` once between TICKs in an instruction with `p`. -/
def OncePerTick (p : Gate → Bool) (explicit : Bool) {σ : Type} (inds : Dict String Nat) (l : Layout) (pre : Bool) (n : Nat)
    (post : Bool) (b : PyM σ Circuit) : Prop :=
  ∃ qs, l.getQubits [] = .ok qs ∧ qs.Nodup ∧ ∀ s c s', b s = (.ok c, s') →
    EachOnce p explicit (qs.map (ind inds)) pre n post c

/-- Same for a block of several layouts, no two of which have a qubit in common. -/
def OncePerTickAll (p : Gate → Bool) (explicit : Bool) {σ : Type} (inds : Dict String Nat) (ls : List Layout) (pre : Bool)
    (n : Nat) (post : Bool) (b : PyM σ Circuit) : Prop :=
  ∃ Qs, List.Forall₂ (fun l Q => l.getQubits [] = .ok Q) ls Qs ∧ Qs.flatten.Nodup ∧ ∀ s c s', b s = (.ok c, s') →
    EachOnce p explicit (Qs.flatten.map (ind inds)) pre n post c

/-- The time steps of a whole circuit, from TICK to TICK: in the ones with `true` every qubit of `qs` is in exactly one
instruction with `p` (at most one if idling is not `explicit`) and no other qubit is, in the ones with `false` there is no
such instruction. -/
def Timeline (p : Gate → Bool) (explicit : Bool) (qs : List Nat) (steps : List Bool) (c : Circuit) : Prop :=
  List.Forall₂ (fun b u => if b then (if explicit then u.Perm qs else u.Subperm qs) else u = []) steps
    ((tickBlocks c).map (used p))

/-- `n` steps in which all qubits are used and one in which none is. -/
def cycle (n : Nat) : List Bool := List.replicate n true ++ [false]

end SurfaceSim.Spec
