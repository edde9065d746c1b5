/-
Specification of experiments with logical gates: the values of their detectors and of the observables without noise.
-/
import Verif.Spec.Memory
import Verif.Spec.TransGates

namespace SurfaceSim.Spec
open SurfaceSim

/-- Values of the detectors of an experiment with one round followed by gates and `k` further rounds: only those of the
first round can be non-zero, where each ancilla in `stabs` gives the parity of the initial bits of its support. -/
def gateDetectors (ancs stabs stabs' sel : List String) (sup : String → List String) (k : Nat) (dataInit : Dict String Int) :
    List (ZMod 2) :=
  (ancs.map fun a => if a ∈ sel ∧ a ∈ stabs then bits dataInit (sup a) else 0) ++
    List.replicate (k * ancs.length + (ancs.filter (· ∈ stabs')).length) 0

/-- Further conditions on the arguments of experiments with gates: a frame that follows the gates, a `Detectors` object for
exactly the ancillas of the layouts, none of which is set to one. -/
structure GateArgs (cfg : Detectors.Config) (ls : List Layout) (dataInit : Dict String Int) : Prop where
  frame : cfg.frame ≠ .gateIndependent
  anc : ∀ a ∈ cfg.anc, ∃ l ∈ ls, a ∈ ancOfLayout l
  init : ∀ l ∈ ls, ∀ a ∈ ancOfLayout l, isOne dataInit a = 0

/-- The experiment `e` (without and with gauge detectors) prepares the data qubits in the basis `rb`, measures them in the
basis `rb'`, and has one round, then gates and `k` further rounds.  It returns a circuit that measures the ancillas in
each round and then the data qubits, always in the order of `get_qubits`.  For all random outcomes its detectors have the values
`gateDetectors`, and its observable is the parity of the initial bits of `support`.  (These are values relative to the same
circuit without its Pauli gates, as those of a frame simulator.)  With gauge detectors the ones of the
first round for ancillas that are not of the type of the basis have no fixed value. -/
def FixedGateValues (cfg : Detectors.Config) (nm : NoiseModel) (l : Layout) (k : Nat) (dataInit : Dict String Int)
    (rb rb' : Bool) (ancDetectors : Option (List String)) (support : List String)
    (e : Bool → PyM (Sim cfg) Circuit) : Prop :=
  ∃ data anc stabs stabs', l.getQubits [("role", .str "data")] = .ok data ∧ l.getQubits [("role", .str "anc")] = .ok anc ∧
    l.getQubits [("role", .str "anc"), ("stab_type", .str (if rb then "x_type" else "z_type"))] = .ok stabs ∧
    l.getQubits [("role", .str "anc"), ("stab_type", .str (if rb' then "x_type" else "z_type"))] = .ok stabs' ∧
    ∀ gauge s, ∃ c s', e gauge s = (.ok c, s') ∧ PairsOk c ∧
      measOrder c = ((List.replicate (1 + k) anc).flatten ++ data).map (ind nm.inds) ∧
      ∀ ζ ρ : Nat → ZMod 2,
        let E := gateDetectors cfg.anc stabs stabs' (ancDetectors.getD anc) (fun a => l.getNeighbors [a] none) k dataInit
        (if gauge then SameButGauge cfg.anc anc stabs (ancDetectors.getD anc) 1 (detectors ζ ρ c) E
          else detectors ζ ρ c = E) ∧
        observables ζ ρ c = [(0, bits dataInit support)]

end SurfaceSim.Spec
