/-
Specification of memory experiments: the values of their detectors and of the observable without noise.
-/
import Verif.Spec.Round
import Verif.Spec.Detectors
import Verif.Model.Experiments

namespace SurfaceSim.Spec
open SurfaceSim

/-- 1 if `data_init` sets the qubit to one. -/
def isOne (dataInit : Dict String Int) (q : String) : ZMod 2 :=
  if dataInit.any fun kv => decide (kv.1 = q ∧ kv.2 ≠ 0) then 1 else 0

/-- Parity of the initial bits of the qubits. -/
def bits (dataInit : Dict String Int) (qs : List String) : ZMod 2 := (qs.map (isOne dataInit)).sum

/-- Values of the detectors of a memory experiment with `n` rounds on a layout with ancillas `anc` (of which `stabs` are of the
type of the basis), if the `Detectors` object has the ancillas `ancs` and the detectors `sel` are asked for.  The only
non-zero ones come from the initial bits of the support `sup a`, in the first round (or in the final detectors if there
is no round), and from ancillas that are initialised to one and not reset. -/
def memoryDetectors (ancs anc stabs sel : List String) (sup : String → List String) (reset : Bool) (n : Nat)
    (dataInit : Dict String Int) : List (ZMod 2) :=
  let left a := if reset then 0 else isOne dataInit a
  let round r a := if a ∈ sel ∧ a ∈ anc then
      (if r = 0 then (if a ∈ stabs then left a + bits dataInit (sup a) else 0) else if r = 1 then left a else 0) else 0
  let final a := if a ∈ sel ∧ a ∈ anc then
      (if n = 0 then bits dataInit (sup a) else if n = 1 then left a else 0) else 0
  ((List.range n).flatMap fun r => ancs.map (round r)) ++ (ancs.filter (· ∈ stabs)).map final

/-- Usable arguments of a memory experiment: the `Detectors` object knows the ancillas of the layout and does not take
data qubits for ancillas, detectors are asked for ancillas of the layout, and the qubits to be set to one are known. -/
structure MemoryArgs (cfg : Detectors.Config) (nm : NoiseModel) (l : Layout) (dataInit : Dict String Int)
    (ancDetectors : Option (List String)) : Prop where
  config : ConfigOk cfg
  anc : ∀ qs, l.getQubits [("role", .str "anc")] = .ok qs →
    (∀ a ∈ qs, a ∈ cfg.anc) ∧ ∀ sel, ancDetectors = some sel → ∀ a ∈ sel, a ∈ qs
  data : ∀ qs, l.getQubits [("role", .str "data")] = .ok qs → ∀ d ∈ qs, d ∉ cfg.anc
  init : ∀ q, isOne dataInit q = 1 → q ∈ nm.inds.keys

/-- The experiment `e` with `n` rounds returns a circuit whose detectors and observable (the logical X or Z of the
logical qubit `label`) have the values given by the initial bits, for all random outcomes `ζ`, `ρ`. -/
def FixedValues (cfg : Detectors.Config) (l : Layout) (label : String) (n : Nat) (dataInit : Dict String Int)
    (rotBasis reset : Bool) (ancDetectors : Option (List String)) (e : PyM (Sim cfg) Circuit) : Prop :=
  ∃ anc stabs log, l.getQubits [("role", .str "anc")] = .ok anc ∧
    l.getQubits [("role", .str "anc"), ("stab_type", .str (if rotBasis then "x_type" else "z_type"))] = .ok stabs ∧
    (if rotBasis then l.logX else l.logZ).get? label = some log ∧
    ∀ s, ∃ c s', e s = (.ok c, s') ∧ ∀ ζ ρ : Nat → ZMod 2,
      detectors ζ ρ c = memoryDetectors cfg.anc anc stabs (ancDetectors.getD anc) (fun a => l.getNeighbors [a] none)
        reset n dataInit ∧ observables ζ ρ c = [(0, bits dataInit log)]

/-- The detector values `D` are those of `E`, except maybe for the detectors of the first round for ancillas that are not of
the type of the basis. -/
def SameButGauge (ancs anc stabs sel : List String) (n : Nat) (D E : List (ZMod 2)) : Prop :=
  D.length = E.length ∧ ∀ i : Nat, (0 < n → ∀ a, ancs[i]? = some a → a ∈ sel → a ∈ anc → a ∈ stabs) → D[i]? = E[i]?

/-- As `FixedValues`, for experiments with `gauge_detectors=True`, where the detectors of the first round for ancillas of the
other type have no fixed value. -/
def FixedButGauge (cfg : Detectors.Config) (l : Layout) (label : String) (n : Nat) (dataInit : Dict String Int)
    (rotBasis reset : Bool) (ancDetectors : Option (List String)) (e : PyM (Sim cfg) Circuit) : Prop :=
  ∃ anc stabs log, l.getQubits [("role", .str "anc")] = .ok anc ∧
    l.getQubits [("role", .str "anc"), ("stab_type", .str (if rotBasis then "x_type" else "z_type"))] = .ok stabs ∧
    (if rotBasis then l.logX else l.logZ).get? label = some log ∧
    ∀ s, ∃ c s', e s = (.ok c, s') ∧ ∀ ζ ρ : Nat → ZMod 2,
      SameButGauge cfg.anc anc stabs (ancDetectors.getD anc) n (detectors ζ ρ c)
        (memoryDetectors cfg.anc anc stabs (ancDetectors.getD anc) (fun a => l.getNeighbors [a] none) reset n dataInit) ∧
      observables ζ ρ c = [(0, bits dataInit log)]

/-- The experiment `e` measures the ancillas of the layout `n` times, each time in the order of
`l.get_qubits(role="anc")`, and then the data qubits in the order of `l.get_qubits(role="data")`. -/
def RecordOrder (cfg : Detectors.Config) (nm : NoiseModel) (l : Layout) (n : Nat)
    (e : PyM (Sim cfg) Circuit) : Prop :=
  ∃ data anc, l.getQubits [("role", .str "data")] = .ok data ∧ l.getQubits [("role", .str "anc")] = .ok anc ∧
    ∀ s, ∃ c s', e s = (.ok c, s') ∧
      measOrder c = ((List.replicate n anc).flatten ++ data).map (ind nm.inds)

end SurfaceSim.Spec
