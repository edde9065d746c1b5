/-
Specification of QEC rounds: what the noise-free content of a round does to the Pauli frame.
-/
import Verif.Spec.Faithful
import Verif.Spec.Layout
import Verif.Spec.CircuitOps

namespace SurfaceSim.Spec
open SurfaceSim

/-- Different labels have different stim indices. -/
def IndsInj (inds : Dict String Nat) : Prop :=
  ∀ a ∈ inds.keys, ∀ b ∈ inds.keys, ind inds a = ind inds b → a = b

/-- Whether the frame `st` anticommutes (1) or commutes (0) with the operator that has an X at the qubits
`d` in `sup` with `isX d`, and a Z at the other qubits of `sup`. -/
def anticommutes (ι : String → Nat) (st : FState Nat) (sup : List String) (isX : String → Bool) : ZMod 2 :=
  (sup.map fun d => if isX d then st.z (ι d) else st.x (ι d)).sum

/-- Sum of the elements `r a` over `a` in `l` satisfying the condition. -/
def total (l : List String) (p : String → Bool) (r : String → ZMod 2) : ZMod 2 :=
  ((l.filter p).map r).sum

/-- The outcome of the ancilla `a` in a round: the syndrome of its stabilizer, added to what was in the ancilla
before if it is not reset. -/
def ancOutcome (ι : String → Nat) (reset : Bool) (st : FState Nat) (sup : String → List String)
    (isX : String → String → Bool) (a : String) : ZMod 2 :=
  (if reset then 0 else st.x (ι a)) + anticommutes ι st (sup a) (isX a)

/-- The operations `L` measure for each ancilla `a` in `anc`, in this order, the operator that has an X or Z
(according to `isX a`) at each data qubit in `sup a`, whatever the frame and the randomness.  The data
qubits change by the product of the operators of those ancillas with `r a = 1`; nothing else happens. -/
structure MeasuresStabs (ι : String → Nat) (data anc : List String) (sup : String → List String)
    (isX : String → String → Bool) (reset : Bool) (st st' : FState Nat) : Prop where
  recs : st'.recs = (anc.map (ancOutcome ι reset st sup isX)).reverse ++ st.recs
  ancilla : ∀ a ∈ anc, st'.x (ι a) = ancOutcome ι reset st sup isX a
  kicks : ∃ r : String → ZMod 2, ∀ d ∈ data,
    st'.x (ι d) = st.x (ι d) + total anc (fun a => d ∈ sup a ∧ isX a d = true) r ∧
    st'.z (ι d) = st.z (ι d) + total anc (fun a => d ∈ sup a ∧ isX a d = false) r
  dets : st'.dets = st.dets
  obs : st'.obs = st.obs
  others : ∀ n, (∀ q ∈ data ++ anc, ι q ≠ n) → st'.x n = st.x n ∧ st'.z n = st.z n

/-- `l` is `l0` with further parameters stored by `set_param` (as the logical gates do); the parameters that place
the qubits are not touched. -/
inductive WithParams (l0 : Layout) : Layout → Prop where
  | refl : WithParams l0 l0
  | set {l l' : Layout} {key q : String} {v : Val} : WithParams l0 l → key ∉ ["ind", "role", "stab_type", "coords", "neighbors"] →
      l.setParam key q v = .ok l' → WithParams l0 l'

/-- Blocks for the layout `l` can be run with the noise model `nm`: the model implements the ideal operations,
its stim indices are distinct and it knows all qubits of the layout. -/
structure CanRun (nm : NoiseModel) (l : Layout) : Prop where
  faithful : Faithful nm
  inj : IndsInj nm.inds
  known : ∀ qs, l.getQubits [] = .ok qs → ∀ q ∈ qs, q ∈ nm.inds.keys

/-- The block `b` measures the stabilizers of `l`, whose supports are the neighbours of the ancillas and whose types
are `isX`: for every record of measurements it returns a circuit that does so, measures the ancillas in the order of `l.get_qubits(role="anc")` (with the targets of two-qubit gates in pairs of different qubits). -/
def RoundMeasures (nm : NoiseModel) (l : Layout) (b : PyM MeasState Circuit) (isX : String → String → Bool)
    (reset : Bool) : Prop :=
  ∃ data anc, l.getQubits [("role", .str "data")] = .ok data ∧ l.getQubits [("role", .str "anc")] = .ok anc ∧
    ∀ (s : MeasState) (hist : List String), s.Tracks nm.inds hist →
      ∃ c s', b s = (.ok c, s') ∧ PairsOk c ∧ s'.Tracks nm.inds (hist ++ anc) ∧
        measOrder c = anc.map (ind nm.inds) ∧ ∀ (ρ : Nat → ZMod 2) (st : FState Nat),
          MeasuresStabs (ind nm.inds) data anc (fun x => l.getNeighbors [x] none) isX reset st (run ρ st (ops c))

/-- The types of XZZX stabilizers: X at the data qubits north-west and south-east of the ancilla, Z at the other
ones. -/
def xzzxType (l : Layout) (x d : String) : Bool :=
  decide (d ∈ l.getNeighbors [x] (some "north_west") ∨ d ∈ l.getNeighbors [x] (some "south_east"))

/-- The data qubits at which the stabilizers of the Z ancillas `zs` have an X in the XZZX code: there the X and Z of the
CSS code are exchanged. -/
def xzzxRotated (l : Layout) (zs : List String) (d : String) : Bool := zs.any fun z => xzzxType l z d

/-- The block `b` does not disturb the encoded state: whatever the frame and the randomness, it keeps the syndromes of
all stabilizers (types `isX`) and the value of the logical X and Z operators of the logical qubit `label`, which have
an X at the qubits with `xX` (`zX`) and a Z at the other ones. -/
def LeavesCode (nm : NoiseModel) (l : Layout) (label : String) (b : PyM MeasState Circuit)
    (isX : String → String → Bool) (xX zX : String → Bool) : Prop :=
  ∃ anc lx lz, l.getQubits [("role", .str "anc")] = .ok anc ∧ l.logX.get? label = some lx ∧
    l.logZ.get? label = some lz ∧ ∀ (s : MeasState) (hist : List String), s.Tracks nm.inds hist →
      ∃ c s', b s = (.ok c, s') ∧ ∀ (ρ : Nat → ZMod 2) (st : FState Nat),
        (∀ y ∈ anc, anticommutes (ind nm.inds) (run ρ st (ops c)) (l.getNeighbors [y] none) (isX y) =
          anticommutes (ind nm.inds) st (l.getNeighbors [y] none) (isX y)) ∧
        anticommutes (ind nm.inds) (run ρ st (ops c)) lx xX = anticommutes (ind nm.inds) st lx xX ∧
        anticommutes (ind nm.inds) (run ρ st (ops c)) lz zX = anticommutes (ind nm.inds) st lz zX

/-- The frame after an error on the qubit `n`: X if `ex`, Z if `ez`. -/
def withError (st : FState Nat) (n : Nat) (ex ez : ZMod 2) : FState Nat :=
  { st with x := Function.update st.x n (st.x n + ex), z := Function.update st.z n (st.z n + ez) }

/-- Any error on one data qubit before the block `b` changes the outcomes of `b`, whatever the randomness. -/
def DetectsErrors (nm : NoiseModel) (l : Layout) (b : PyM MeasState Circuit) : Prop :=
  ∃ data, l.getQubits [("role", .str "data")] = .ok data ∧
    ∀ (s : MeasState) (hist : List String), s.Tracks nm.inds hist → ∃ c s', b s = (.ok c, s') ∧
      ∀ d ∈ data, ∀ ex ez : ZMod 2, (ex ≠ 0 ∨ ez ≠ 0) → ∀ (ρ ρ' : Nat → ZMod 2) (st : FState Nat),
        (run ρ' (withError st (ind nm.inds d) ex ez) (ops c)).recs ≠ (run ρ st (ops c)).recs

end SurfaceSim.Spec
