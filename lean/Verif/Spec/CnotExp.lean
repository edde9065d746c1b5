/-
Specification of experiments with transversal CNOT gates between two codes.
-/
import Verif.Spec.GateExp

namespace SurfaceSim.Spec
open SurfaceSim

/-- Conditions on the `Detectors` object and `anc_detectors` for two layouts. -/
structure PairArgs (cfg : Detectors.Config) (lc lt : Layout) (ancDetectors : Option (List String)) : Prop where
  config : ConfigOk cfg
  anc : ∀ l ∈ [lc, lt], ∀ a ∈ ancOfLayout l, a ∈ cfg.anc
  sel : ∀ sel, ancDetectors = some sel → ∀ a ∈ sel, ∃ l ∈ [lc, lt], a ∈ ancOfLayout l

/-- The circuit `c` measures, in each of `1 + k` rounds, the ancillas of `lc` and those of `lt`, and at the end the data
qubits of `lc` and those of `lt`, always in the order of `get_qubits`.  For all random outcomes its detectors have the values
`gateDetectors` (except the gauge detectors, if there are any), and its observables 0 and 1 have the values `vc` and `vt`. -/
def FixedPairValues (cfg : Detectors.Config) (nm : NoiseModel) (lc lt : Layout) (k : Nat) (dataInit : Dict String Int)
    (rb gauge : Bool) (ancDetectors : Option (List String)) (vc vt : ZMod 2) (c : Circuit) : Prop :=
  ∃ dataC ancC stabsC dataT ancT stabsT, lc.getQubits [("role", .str "data")] = .ok dataC ∧
    lc.getQubits [("role", .str "anc")] = .ok ancC ∧
    lc.getQubits [("role", .str "anc"), ("stab_type", .str (if rb then "x_type" else "z_type"))] = .ok stabsC ∧
    lt.getQubits [("role", .str "data")] = .ok dataT ∧ lt.getQubits [("role", .str "anc")] = .ok ancT ∧
    lt.getQubits [("role", .str "anc"), ("stab_type", .str (if rb then "x_type" else "z_type"))] = .ok stabsT ∧
    PairsOk c ∧
    measOrder c = ((List.replicate (1 + k) (ancC ++ ancT)).flatten ++ (dataC ++ dataT)).map (ind nm.inds) ∧
    ∀ ζ ρ : Nat → ZMod 2,
      let E := gateDetectors cfg.anc (stabsC ++ stabsT) (stabsC ++ stabsT) (ancDetectors.getD (ancC ++ ancT))
        (fun a => if a ∈ ancC then lc.getNeighbors [a] none else lt.getNeighbors [a] none) k dataInit
      (if gauge then SameButGauge cfg.anc (ancC ++ ancT) (stabsC ++ stabsT) (ancDetectors.getD (ancC ++ ancT)) 1
          (detectors ζ ρ c) E
        else detectors ζ ρ c = E) ∧
      observables ζ ρ c = [(0, vc), (1, vt)]

/-- The values of the logical operators of two codes (X if `rb`, Z otherwise) after CNOT gates, each either from the first to the second code (`false`) or from
the second to the first (`true`). -/
def afterCnots (rb : Bool) (swaps : List Bool) (p : ZMod 2 × ZMod 2) : ZMod 2 × ZMod 2 :=
  swaps.foldl (fun p swap =>
    -- the Z operator of the control is added to that of the target, the X operator of the target to that of the control
    let controlFirst := !swap
    if rb = controlFirst then (p.1 + p.2, p.2) else (p.1, p.1 + p.2)) p

/-- As `FixedPairValues`, for gates in both directions: after a first round, which measures the ancillas of `lc` and those of `lt`,
there are `m` rounds for each gate, which measure first the ancillas of the control of that gate; the data qubits of `lt` are measured first if `final` is true,
and then observable 0 is the one of `lt`. -/
def FixedTurnValues (cfg : Detectors.Config) (nm : NoiseModel) (lc lt : Layout) (swaps : List Bool) (m : Nat) (final : Bool)
    (dataInit : Dict String Int) (rb gauge : Bool) (ancDetectors : Option (List String)) (v : ZMod 2 × ZMod 2) (c : Circuit) : Prop :=
  ∃ dataC ancC stabsC dataT ancT stabsT, lc.getQubits [("role", .str "data")] = .ok dataC ∧
    lc.getQubits [("role", .str "anc")] = .ok ancC ∧
    lc.getQubits [("role", .str "anc"), ("stab_type", .str (if rb then "x_type" else "z_type"))] = .ok stabsC ∧
    lt.getQubits [("role", .str "data")] = .ok dataT ∧ lt.getQubits [("role", .str "anc")] = .ok ancT ∧
    lt.getQubits [("role", .str "anc"), ("stab_type", .str (if rb then "x_type" else "z_type"))] = .ok stabsT ∧
    PairsOk c ∧
    measOrder c = ((ancC ++ ancT) ++ (swaps.flatMap fun swap => (List.replicate m (if swap then ancT ++ ancC else ancC ++ ancT)).flatten) ++
      (if final then dataT ++ dataC else dataC ++ dataT)).map (ind nm.inds) ∧
    ∀ ζ ρ : Nat → ZMod 2,
      let E := gateDetectors cfg.anc (stabsC ++ stabsT) (stabsC ++ stabsT) (ancDetectors.getD (ancC ++ ancT))
        (fun a => if a ∈ ancC then lc.getNeighbors [a] none else lt.getNeighbors [a] none) (swaps.length * m) dataInit
      (if gauge then SameButGauge cfg.anc (ancC ++ ancT) (stabsC ++ stabsT) (ancDetectors.getD (ancC ++ ancT)) 1
          (detectors ζ ρ c) E
        else detectors ζ ρ c = E) ∧
      observables ζ ρ c = if final then [(0, v.2), (1, v.1)] else [(0, v.1), (1, v.2)]

/-- The names and arguments of the instructions. -/
def shape (c : Circuit) : List (Gate × List Arg) := c.map fun i => (i.gate, i.args)

/-- The circuits that `f` returns for equally many qubits differ only in their targets. -/
def ShapeByNumber (f : List String → PyM MeasState Circuit) : Prop :=
  ∀ qs qs' : List String, qs.length = qs'.length → ∀ s s' c c' s₁ s₁',
    f qs s = (.ok c, s₁) → f qs' s' = (.ok c', s₁') → shape c = shape c'

/-- Every method of the noise model that is used in rounds, initializations and measurements returns, for equally many qubits,
circuits that differ only in their targets; and the methods used in initializations do not measure. -/
structure UniformModel (nm : NoiseModel) : Prop where
  incoming : ShapeByNumber nm.incomingNoise
  hadamard : ShapeByNumber nm.hadamard
  cphase : ShapeByNumber nm.cphase
  measure : ShapeByNumber nm.measure
  reset : ShapeByNumber nm.reset
  idle : ShapeByNumber nm.idle
  noMeas : ∀ f ∈ [nm.reset, nm.xGate, nm.hadamard, nm.idle], ∀ (qs : List String) s c s',
    f qs s = (.ok c, s') → ∀ i ∈ c, i.gate.isMeas = false

/-- All parameters of the setup have the same value for all qubits (and for all pairs of qubits). -/
def SameParams (st : Setup) : Prop :=
  ∀ (p : String) (qs qs' : List String), qs.length = qs'.length → st.param p qs = st.param p qs'

end SurfaceSim.Spec
