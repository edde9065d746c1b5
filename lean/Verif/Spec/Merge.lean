/-
Specification of merged logical measurements: the observables a circuit declares.
-/
import Verif.Spec.Frame
import Verif.Spec.Round
import Verif.Model.Experiments

namespace SurfaceSim.Spec
open SurfaceSim

/-- The observables declared by a circuit, in order: index and record lookbacks. -/
def declared (c : Circuit) : List (Rat × List Int) := (ops c).filterMap fun
  | .obs k recs => some (k, recs)
  | _ => none

/-- The items of the generator never declare observables. -/
def DeclaresNone (g : Gen) : Prop := ∀ b ∈ g, ∀ s c s', b s = (.ok c, s') → declared c = []

/-- Number of logical qubits of a layout. -/
def numLogical (l : Layout) : Nat := l.logQubits.length

/-- The logical operators to be measured: number of the layout, number of the logical qubit in the layout, layout and
support. -/
def logicals (lrs : List (Layout × Bool)) : List (Nat × Nat × Layout × List String) :=
  lrs.zipIdx.flatMap fun e => e.1.1.logQubits.zipIdx.map fun q =>
    (e.2, q.2, e.1.1, (((if e.1.2 then e.1.1.logX else e.1.1.logZ).get? q.1).getD []))

/-- The methods of the noise model used in a logical measurement never declare observables. -/
structure NoObservables (nm : NoiseModel) : Prop where
  incoming : ∀ qs s c s', nm.incomingNoise qs s = (.ok c, s') → declared c = []
  hadamard : ∀ qs s c s', nm.hadamard qs s = (.ok c, s') → declared c = []
  measure : ∀ qs s c s', nm.measure qs s = (.ok c, s') → declared c = []
  idle : ∀ qs s c s', nm.idle qs s = (.ok c, s') → declared c = []

/-- The methods of the noise model used in rounds, initializations and measurements never emit a TICK. -/
structure NoTicks (nm : NoiseModel) : Prop where
  incoming : ∀ qs s c s', nm.incomingNoise qs s = (.ok c, s') → ∀ i ∈ c, i.gate ≠ .TICK
  hadamard : ∀ qs s c s', nm.hadamard qs s = (.ok c, s') → ∀ i ∈ c, i.gate ≠ .TICK
  cphase : ∀ qs s c s', nm.cphase qs s = (.ok c, s') → ∀ i ∈ c, i.gate ≠ .TICK
  measure : ∀ qs s c s', nm.measure qs s = (.ok c, s') → ∀ i ∈ c, i.gate ≠ .TICK
  reset : ∀ qs s c s', nm.reset qs s = (.ok c, s') → ∀ i ∈ c, i.gate ≠ .TICK
  idle : ∀ qs s c s', nm.idle qs s = (.ok c, s') → ∀ i ∈ c, i.gate ≠ .TICK
  xGate : ∀ qs s c s', nm.xGate qs s = (.ok c, s') → ∀ i ∈ c, i.gate ≠ .TICK

/-- Measuring some qubits while others idle always gives the same sequence of instructions, with at most one
measurement among them. -/
def UniformMeas (nm : NoiseModel) : Prop :=
  ∃ sig : List Gate, (sig.filter Gate.isMeas).length ≤ 1 ∧ ∀ qs rs : List String, qs ≠ [] → rs ≠ [] →
    ∀ s c s', Blocks.plus (nm.measure qs) (nm.idle rs) s = (.ok c, s') → c.map Instr.gate = sig

/-- No two of the layouts have a qubit in common. -/
def NoCommonQubit (ls : List Layout) : Prop :=
  ls.Pairwise fun l l' => ∀ qs qs', l.getQubits [] = .ok qs → l'.getQubits [] = .ok qs' → ∀ q ∈ qs, q ∉ qs'

/-- What the rounds of one layout measure: data qubits, ancillas, and for each ancilla the support and the type of its
stabilizer. -/
structure Patch where
  data : List String
  anc : List String
  sup : String → List String
  isX : String → String → Bool

/-- The stabilizers of a CSS code with the layout `l`: X (Z) on all neighbours of the X (Z) ancillas. -/
def CssPatch (l : Layout) (p : Patch) : Prop :=
  l.getQubits [("role", .str "data")] = .ok p.data ∧ l.getQubits [("role", .str "anc")] = .ok p.anc ∧
    (∀ x, p.sup x = l.getNeighbors [x] none) ∧
    ∃ xs, l.getQubits [("role", .str "anc"), ("stab_type", .str "x_type")] = .ok xs ∧
      ∀ x d, p.isX x d = decide (x ∈ xs)

/-- The stabilizers of all patches are measured simultaneously: the outcomes of the ancillas are those of the frame `st`
(patch after patch), the data qubits of each patch change by a product of its stabilizers, and nothing else
happens. -/
structure MeasuresAll (ι : String → Nat) (ps : List Patch) (reset : Bool) (st st' : FState Nat) : Prop where
  recs : st'.recs = (ps.flatMap fun p => p.anc.map (ancOutcome ι reset st p.sup p.isX)).reverse ++ st.recs
  ancilla : ∀ p ∈ ps, ∀ a ∈ p.anc, st'.x (ι a) = ancOutcome ι reset st p.sup p.isX a
  kicks : ∀ p ∈ ps, ∃ r : String → ZMod 2, ∀ d ∈ p.data,
    st'.x (ι d) = st.x (ι d) + total p.anc (fun a => d ∈ p.sup a ∧ p.isX a d = true) r ∧
    st'.z (ι d) = st.z (ι d) + total p.anc (fun a => d ∈ p.sup a ∧ p.isX a d = false) r
  dets : st'.dets = st.dets
  obs : st'.obs = st.obs
  others : ∀ n, (∀ p ∈ ps, ∀ q ∈ p.data ++ p.anc, ι q ≠ n) → st'.x n = st.x n ∧ st'.z n = st.z n

/-- All data qubits are measured, layout after layout, in the X basis if `rot` and in the Z basis otherwise; the
qubits outside `qs` do not change. -/
structure MeasuresBasis (ι : String → Nat) (rot : Bool) (qs : List String) (st st' : FState Nat) : Prop where
  recs : st'.recs = (qs.map fun q => if rot then st.z (ι q) else st.x (ι q)).reverse ++ st.recs
  dets : st'.dets = st.dets
  obs : st'.obs = st.obs
  others : ∀ n, (∀ q ∈ qs, ι q ≠ n) → st'.x n = st.x n ∧ st'.z n = st.z n

end SurfaceSim.Spec
