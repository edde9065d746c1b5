/-
Specification of programs of logical operations: experiments that a user composes out of the blocks of the package.
-/
import Verif.Spec.GateExp
import Verif.Model.Experiments

namespace SurfaceSim.Spec
open SurfaceSim Blocks Experiments

/-- An operation on a logical qubit: a QEC round, the transversal gate, a logical X or a logical Z. -/
inductive Step where
  | round
  | gate
  | x
  | z
  deriving DecidableEq, Repr

/-- The transversal gate of a program, if it has one. -/
inductive GateKind where
  | none
  | s
  | h
  deriving DecidableEq, Repr

/-- What an operation does to the signs of the logical X and Z operators, i.e. to the pair of bits that tells if they have been
flipped: S maps X to XZ (up to a phase) and H exchanges X and Z. -/
def Step.act (k : GateKind) : Step → ZMod 2 × ZMod 2 → ZMod 2 × ZMod 2
  | .round, f => f
  | .x, f => (f.1, f.2 + 1)
  | .z, f => (f.1 + 1, f.2)
  | .gate, f => match k with
    | .none => f
    | .s => (f.1 + f.2, f.2)
    | .h => (f.2, f.1)

/-- The signs after a program. -/
def signs (k : GateKind) (steps : List Step) : ZMod 2 × ZMod 2 := steps.foldl (fun f x => x.act k f) (0, 0)

/-- The sign of the logical operator that is measured at the end. -/
def signOf (rb : Bool) (f : ZMod 2 × ZMod 2) : ZMod 2 := if rb then f.1 else f.2

/-- The call for an operation. -/
def Step.call {α : Type} (round gate x z : α) : Step → α
  | .round => round
  | .gate => gate
  | .x => x
  | .z => z

/-- The experiment of a user who prepares the data qubits, does a QEC round, then the operations `steps` in their order,
and measures the data qubits.  `x`, `z` and `gate` are the blocks for the logical operations; the other blocks are those of `fam`.
The circuits are added as in the experiments of the package. -/
def program {cfg : Detectors.Config} (fam : Family cfg) (o : SetOrder) (nm : NoiseModel) (l : Layout)
    (x z gate : PyM (Sim cfg) Circuit) (steps : List Step) (dataInit : Dict String Int) (rb rb' reset : Bool)
    (ancDetectors : Option (List String)) (gauge : Bool) : PyM (Sim cfg) Circuit := do
  let sel ← PyM.ofExcept (ancDefault [l] ancDetectors)
  let e ← start nm [l]
  let e ← addTo e (fam.init l dataInit rb)
  let first ← PyM.ofExcept (firstSel o [l] rb sel gauge)
  let e ← addTo e (fam.round l reset (some first))
  let e ← addAll e steps (Step.call (fam.round l reset (some sel)) gate x z)
  addTo e (fam.meas l rb' reset (some sel))

/-- Like `FixedGateValues`, for an experiment whose observable also has the sign `flip`. -/
def FixedProgramValues (cfg : Detectors.Config) (nm : NoiseModel) (l : Layout) (k : Nat) (dataInit : Dict String Int)
    (rb rb' : Bool) (ancDetectors : Option (List String)) (support : List String) (flip : ZMod 2)
    (e : Bool → PyM (Sim cfg) Circuit) : Prop :=
  ∃ data anc stabs stabs', l.getQubits [("role", .str "data")] = .ok data ∧ l.getQubits [("role", .str "anc")] = .ok anc ∧
    l.getQubits [("role", .str "anc"), ("stab_type", .str (if rb then "x_type" else "z_type"))] = .ok stabs ∧
    l.getQubits [("role", .str "anc"), ("stab_type", .str (if rb' then "x_type" else "z_type"))] = .ok stabs' ∧
    ∀ gauge s, ∃ c s', e gauge s = (.ok c, s') ∧ PairsOk c ∧
      measOrder c = ((List.replicate (1 + k) anc).flatten ++ data).map (ind nm.inds) ∧
      ∀ ζ ρ : Nat → ZMod 2,
        let E := gateDetectors cfg.anc stabs stabs' (ancDetectors.getD anc) (fun a => l.getNeighbors [a] none) k dataInit
        (if gauge then SameButGauge cfg.anc anc stabs (ancDetectors.getD anc) 1 (detectors ζ ρ c) E
          else detectors ζ ρ c = E) ∧
        observables ζ ρ c = [(0, bits dataInit support + flip)]

end SurfaceSim.Spec
