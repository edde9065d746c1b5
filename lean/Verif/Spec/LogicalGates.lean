/-
Specification of blocks that apply a logical Pauli operator.
-/
import Verif.Spec.Round

namespace SurfaceSim.Spec
open SurfaceSim

/-- The block `b` applies a logical operator: for every record of measurements it returns a circuit without
measurements, detectors and observables that, whatever the frame and the randomness, changes neither the ancillas
nor the syndrome of any stabilizer (types `isX`), adds `flipX` to the value of the logical X operator of the logical
qubit `label` and `flipZ` to the one of the logical Z operator.  These have an X at the qubits with `xX` (`zX`) and a Z
at the other ones. -/
def AppliesLogical (nm : NoiseModel) (l : Layout) (label : String) (b : PyM MeasState Circuit)
    (isX : String → String → Bool) (xX zX : String → Bool) (flipX flipZ : ZMod 2) : Prop :=
  ∃ anc lx lz, l.getQubits [("role", .str "anc")] = .ok anc ∧ l.logX.get? label = some lx ∧
    l.logZ.get? label = some lz ∧ ∀ (s : MeasState) (hist : List String), s.Tracks nm.inds hist →
      ∃ c s', b s = (.ok c, s') ∧ s'.Tracks nm.inds hist ∧ EvenPairs c ∧ ∀ (ρ : Nat → ZMod 2) (st : FState Nat),
        (run ρ st (ops c)).recs = st.recs ∧ (run ρ st (ops c)).dets = st.dets ∧
        (run ρ st (ops c)).obs = st.obs ∧
        (∀ y ∈ anc, (run ρ st (ops c)).x (ind nm.inds y) = st.x (ind nm.inds y) ∧
          (run ρ st (ops c)).z (ind nm.inds y) = st.z (ind nm.inds y)) ∧
        (∀ y ∈ anc, anticommutes (ind nm.inds) (run ρ st (ops c)) (l.getNeighbors [y] none) (isX y) =
          anticommutes (ind nm.inds) st (l.getNeighbors [y] none) (isX y)) ∧
        anticommutes (ind nm.inds) (run ρ st (ops c)) lx xX = anticommutes (ind nm.inds) st lx xX + flipX ∧
        anticommutes (ind nm.inds) (run ρ st (ops c)) lz zX = anticommutes (ind nm.inds) st lz zX + flipZ

end SurfaceSim.Spec
