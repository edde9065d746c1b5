/-
Specification of rounds with echo pulses and of their memory experiments.
-/
import Verif.Spec.Memory

namespace SurfaceSim.Spec
open SurfaceSim

/-- The operations measure the stabilizers and reset the ancillas, as in `MeasuresStabs`; in addition the outcomes
are flipped by fixed bits `κ` and the data qubits by a fixed Pauli operator (X if `px`, Z if `pz`). -/
structure MeasuresStabsShifted (ι : String → Nat) (data anc : List String) (sup : String → List String)
    (isX : String → String → Bool) (κ px pz : String → ZMod 2) (st st' : FState Nat) : Prop where
  recs : st'.recs = (anc.map fun a => κ a + ancOutcome ι false st sup isX a).reverse ++ st.recs
  ancilla : ∀ a ∈ anc, st'.x (ι a) = 0
  kicks : ∃ r : String → ZMod 2, ∀ d ∈ data,
    st'.x (ι d) = px d + st.x (ι d) + total anc (fun a => d ∈ sup a ∧ isX a d = true) r ∧
    st'.z (ι d) = pz d + st.z (ι d) + total anc (fun a => d ∈ sup a ∧ isX a d = false) r
  dets : st'.dets = st.dets
  obs : st'.obs = st.obs
  others : ∀ n, (∀ q ∈ data ++ anc, ι q ≠ n) → st'.x n = st.x n ∧ st'.z n = st.z n

/-- The block `b` measures the stabilizers of `l` up to fixed flips, and resets the ancillas; see `RoundMeasures`. -/
def RoundMeasuresShifted (nm : NoiseModel) (l : Layout) (b : PyM MeasState Circuit) (isX : String → String → Bool) :
    Prop :=
  ∃ data anc κ px pz, l.getQubits [("role", .str "data")] = .ok data ∧ l.getQubits [("role", .str "anc")] = .ok anc ∧
    ∀ (s : MeasState) (hist : List String), s.Tracks nm.inds hist →
      ∃ c s', b s = (.ok c, s') ∧ PairsOk c ∧ s'.Tracks nm.inds (hist ++ anc) ∧
        measOrder c = anc.map (ind nm.inds) ∧ ∀ (ρ : Nat → ZMod 2) (st : FState Nat),
          MeasuresStabsShifted (ind nm.inds) data anc (fun x => l.getNeighbors [x] none) isX κ px pz st
            (run ρ st (ops c))

/-- As `LeavesCode`, but the syndromes and the logical values change by fixed bits. -/
def LeavesCodeShifted (nm : NoiseModel) (l : Layout) (label : String) (b : PyM MeasState Circuit)
    (isX : String → String → Bool) (xX zX : String → Bool) : Prop :=
  ∃ anc lx lz, ∃ ε : String → ZMod 2, ∃ εX εZ : ZMod 2, l.getQubits [("role", .str "anc")] = .ok anc ∧
    l.logX.get? label = some lx ∧ l.logZ.get? label = some lz ∧
    ∀ (s : MeasState) (hist : List String), s.Tracks nm.inds hist →
      ∃ c s', b s = (.ok c, s') ∧ ∀ (ρ : Nat → ZMod 2) (st : FState Nat),
        (∀ y ∈ anc, anticommutes (ind nm.inds) (run ρ st (ops c)) (l.getNeighbors [y] none) (isX y) =
          anticommutes (ind nm.inds) st (l.getNeighbors [y] none) (isX y) + ε y) ∧
        anticommutes (ind nm.inds) (run ρ st (ops c)) lx xX = anticommutes (ind nm.inds) st lx xX + εX ∧
        anticommutes (ind nm.inds) (run ρ st (ops c)) lz zX = anticommutes (ind nm.inds) st lz zX + εZ

/-- The experiment `e` with `n` rounds and initial bits `data_init` returns a circuit whose detectors and observable have
fixed values for all random outcomes: those given by the initial bits, see `FixedValues`, after adding values `D`, `b`
that are the same for all initial bits. -/
def FixedValuesUpTo (cfg : Detectors.Config) (nm : NoiseModel) (l : Layout) (label : String) (n : Nat)
    (rotBasis reset : Bool) (ancDetectors : Option (List String))
    (e : Dict String Int → PyM (Sim cfg) Circuit) : Prop :=
  ∃ anc stabs log D b, l.getQubits [("role", .str "anc")] = .ok anc ∧
    l.getQubits [("role", .str "anc"), ("stab_type", .str (if rotBasis then "x_type" else "z_type"))] = .ok stabs ∧
    (if rotBasis then l.logX else l.logZ).get? label = some log ∧
    ∀ dataInit, MemoryArgs cfg nm l dataInit ancDetectors → ∀ s, ∃ c s', e dataInit s = (.ok c, s') ∧
      ∀ ζ ρ : Nat → ZMod 2,
        detectors ζ ρ c = addLists D (memoryDetectors cfg.anc anc stabs (ancDetectors.getD anc)
          (fun a => l.getNeighbors [a] none) reset n dataInit) ∧
        D.length = (detectors ζ ρ c).length ∧
        observables ζ ρ c = [(0, b + bits dataInit log)]

/-- As `FixedValuesUpTo`, for experiments with `gauge_detectors=True`, see `FixedButGauge`. -/
def FixedButGaugeUpTo (cfg : Detectors.Config) (nm : NoiseModel) (l : Layout) (label : String) (n : Nat)
    (rotBasis reset : Bool) (ancDetectors : Option (List String))
    (e : Dict String Int → PyM (Sim cfg) Circuit) : Prop :=
  ∃ anc stabs log D b, l.getQubits [("role", .str "anc")] = .ok anc ∧
    l.getQubits [("role", .str "anc"), ("stab_type", .str (if rotBasis then "x_type" else "z_type"))] = .ok stabs ∧
    (if rotBasis then l.logX else l.logZ).get? label = some log ∧
    ∀ dataInit, MemoryArgs cfg nm l dataInit ancDetectors → ∀ s, ∃ c s', e dataInit s = (.ok c, s') ∧
      ∀ ζ ρ : Nat → ZMod 2,
        SameButGauge cfg.anc anc stabs (ancDetectors.getD anc) n (detectors ζ ρ c)
          (addLists D (memoryDetectors cfg.anc anc stabs (ancDetectors.getD anc)
            (fun a => l.getNeighbors [a] none) reset n dataInit)) ∧
        D.length = (detectors ζ ρ c).length ∧
        observables ζ ρ c = [(0, b + bits dataInit log)]

end SurfaceSim.Spec
