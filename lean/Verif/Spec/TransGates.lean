/-
Specification of transversal logical gates.
-/
import Verif.Spec.Round

namespace SurfaceSim.Spec
open SurfaceSim

/-- The qubits with the given attributes; none if `get_qubits` raises. -/
def qubitsWith (l : Layout) (conds : Dict String Val) : List String :=
  match l.getQubits conds with
  | .ok qs => qs
  | .error _ => []

/-- The data qubits. -/
def dataOfLayout (l : Layout) : List String := qubitsWith l [("role", .str "data")]
/-- The ancillas. -/
def ancOfLayout (l : Layout) : List String := qubitsWith l [("role", .str "anc")]
/-- The X ancillas. -/
def xOfLayout (l : Layout) : List String := qubitsWith l [("role", .str "anc"), ("stab_type", .str "x_type")]
/-- The Z ancillas. -/
def zOfLayout (l : Layout) : List String := qubitsWith l [("role", .str "anc"), ("stab_type", .str "z_type")]

/-- Whether the frame `st` violates the stabilizer of the ancilla `a`, which has an X (a Z) at the neighbours of `a` if
`a` is an X ancilla (a Z ancilla), in whichever of the layouts it is. -/
def stabValue (ι : String → Nat) (ls : List Layout) (st : FState Nat) (a : String) : ZMod 2 :=
  anticommutes ι st (ls.flatMap fun l => l.getNeighbors [a] none) fun _ => ls.any fun l => decide (a ∈ xOfLayout l)

/-- The dictionary of a logical gate stored at a qubit. -/
def gateAt (l : Layout) (label q : String) : Dict String Atom :=
  match l.param label q with
  | .ok (.gate d) => d
  | _ => []

/-- The stored new generator of an ancilla: a list of ancillas. -/
def newGen (l : Layout) (label a : String) : List String :=
  match (gateAt l label a).get? "new_stab_gen" with
  | some (.strs g) => g
  | _ => []

/-- The stored partner of a data qubit. -/
def partnerAt (l : Layout) (label key d : String) : Option String :=
  match (gateAt l label d).get? key with
  | some (.str q) => some q
  | _ => none

/-- The stored local gate of a data qubit. -/
def localAt (l : Layout) (label d : String) : Option String :=
  match (gateAt l label d).get? "local" with
  | some (.str g) => some g
  | _ => none

/-- The block `b` applies a gate whose effect on the stabilizers of the layouts `ls` is the one stored with the given
label: for every record of measurements it returns a circuit without measurements, detectors and observables that,
whatever the frame and the randomness, leaves all qubits of the noise model except the data qubits of the layouts
alone, and after which the syndrome of each ancilla is the sum of the syndromes before of the ancillas in its stored
new generator. -/
def AppliesGate (nm : NoiseModel) (ls : List Layout) (label : String) (b : PyM MeasState Circuit) : Prop :=
  ∀ (s : MeasState) (hist : List String), s.Tracks nm.inds hist →
    ∃ c s', b s = (.ok c, s') ∧ s'.Tracks nm.inds hist ∧ EvenPairs c ∧ ∀ (ρ : Nat → ZMod 2) (st : FState Nat),
      (run ρ st (ops c)).recs = st.recs ∧ (run ρ st (ops c)).dets = st.dets ∧ (run ρ st (ops c)).obs = st.obs ∧
      (∀ q ∈ nm.inds.keys, (∀ l ∈ ls, q ∉ dataOfLayout l) →
        (run ρ st (ops c)).x (ind nm.inds q) = st.x (ind nm.inds q) ∧
        (run ρ st (ops c)).z (ind nm.inds q) = st.z (ind nm.inds q)) ∧
      ∀ l ∈ ls, ∀ a ∈ ancOfLayout l,
        stabValue (ind nm.inds) ls (run ρ st (ops c)) a =
          ((newGen l label a).map (stabValue (ind nm.inds) ls st)).sum

/-- Later changes of the parameters of `l'`, leading to `l`, kept the gate with the given label. -/
def KeptGate (label : String) (l' l : Layout) : Prop := WithParams l' l ∧ ∀ q, l.param label q = l'.param label q

/-- The stored new generators are products of different ancillas of the layouts, and applying the gate twice gives
the old generators: counted modulo 2, the generators of the generators of `a` are `a`. -/
def Involutive (ls : List Layout) (label : String) : Prop :=
  ∀ l ∈ ls, ∀ a ∈ ancOfLayout l, (newGen l label a).Nodup ∧
    (∀ b ∈ newGen l label a, ∃ l' ∈ ls, b ∈ ancOfLayout l') ∧
    ∀ y, (((newGen l label a).flatMap fun b => ls.flatMap fun l' => if b ∈ ancOfLayout l' then newGen l' label b else []).countP
      (· = y)) % 2 = if y = a then 1 else 0

/-- The stored partners are a symmetric relation between different data qubits. -/
def SymmetricPartners (l : Layout) (label key : String) : Prop :=
  ∀ d ∈ dataOfLayout l, ∀ e, partnerAt l label key d = some e →
    e ∈ dataOfLayout l ∧ e ≠ d ∧ partnerAt l label key e = some d

/-- The value of the logical operator of the given type. -/
def logicalValue (ι : String → Nat) (l : Layout) (label : String) (isX : Bool) (st : FState Nat) : ZMod 2 :=
  anticommutes ι st (((if isX then l.logX else l.logZ).get? label).getD []) fun _ => isX

/-- The block `b` maps the logical operator of the given type and label of `l` to the product of the logical operators
in `image`, up to stabilizers that do not depend on the frame. -/
def MapsLogical (nm : NoiseModel) (ls : List Layout) (b : PyM MeasState Circuit) (l : Layout) (label : String) (isX : Bool)
    (image : List (Layout × String × Bool)) : Prop :=
  ∃ T : List String, (∀ a ∈ T, ∃ l ∈ ls, a ∈ ancOfLayout l) ∧
    ∀ (s : MeasState) (hist : List String), s.Tracks nm.inds hist → ∃ c s', b s = (.ok c, s') ∧
      ∀ (ρ : Nat → ZMod 2) (st : FState Nat),
        logicalValue (ind nm.inds) l label isX (run ρ st (ops c)) =
          (image.map fun i => logicalValue (ind nm.inds) i.1 i.2.1 i.2.2 st).sum +
            (T.map (stabValue (ind nm.inds) ls st)).sum

end SurfaceSim.Spec
