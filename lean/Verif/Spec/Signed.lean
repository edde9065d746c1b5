/-
Pauli operators with their sign, and their images under the unitary operations of circuits.
-/
import Verif.Spec.TransGates

namespace SurfaceSim.Spec
open SurfaceSim

/-- The operator `i^ph ∏ X_q^(x q) ∏ Z_q^(z q)`. -/
structure Pauli (Q : Type) where
  ph : ZMod 4
  x : Q → ZMod 2
  z : Q → ZMod 2

/-- A bit as a number modulo 4. -/
def quarter (b : ZMod 2) : ZMod 4 := if b = 1 then 1 else 0

variable {Q : Type} [DecidableEq Q]

/-- The operator `U P U†` for the unitary operations `U`; measurements, resets and annotations are ignored.  That these
are the images is proved from the matrices of the gates, see `C51_conj`. -/
def Pauli.conj (P : Pauli Q) : Op Q → Pauli Q
  | .x q => { P with ph := P.ph + 2 * quarter (P.z q) }
  | .z q => { P with ph := P.ph + 2 * quarter (P.x q) }
  | .h q => ⟨P.ph + 2 * quarter (P.x q * P.z q), Function.update P.x q (P.z q), Function.update P.z q (P.x q)⟩
  | .s q => ⟨P.ph + quarter (P.x q), P.x, Function.update P.z q (P.z q + P.x q)⟩
  | .sdag q => ⟨P.ph - quarter (P.x q), P.x, Function.update P.z q (P.z q + P.x q)⟩
  | .cz a b => ⟨P.ph + 2 * quarter (P.x a * P.x b), P.x,
      Function.update (Function.update P.z a (P.z a + P.x b)) b (P.z b + P.x a)⟩
  | .cx a b => ⟨P.ph, Function.update P.x b (P.x b + P.x a), Function.update P.z a (P.z a + P.z b)⟩
  | .swap a b => ⟨P.ph, Function.update (Function.update P.x a (P.x b)) b (P.x a),
      Function.update (Function.update P.z a (P.z b)) b (P.z a)⟩
  | _ => P

/-- The image under a list of operations, the first one first. -/
def Pauli.conjAll (P : Pauli Q) (l : List (Op Q)) : Pauli Q := l.foldl Pauli.conj P

/-- 1 at the given qubits. -/
def atQubits (ι : String → Nat) (S : List String) (n : Nat) : ZMod 2 := if n ∈ S.map ι then 1 else 0

/-- The product of X operators (Z operators) at the given qubits, with sign +. -/
def pauliString (ι : String → Nat) (isX : Bool) (S : List String) : Pauli Nat :=
  if isX then ⟨0, atQubits ι S, fun _ => 0⟩ else ⟨0, fun _ => 0, atQubits ι S⟩

/-- The stabilizer of an ancilla: X (Z) operators at its neighbours if it is an X (a Z) ancilla. -/
def stabOp (ι : String → Nat) (ls : List Layout) (a : String) : Pauli Nat :=
  pauliString ι (ls.any fun l => decide (a ∈ xOfLayout l)) (ls.flatMap fun l => l.getNeighbors [a] none)

/-- The product of pauli strings, those of X operators on the left of those of Z operators (the order does not matter
for stabilizers because they commute). -/
def xzProduct (Ps : List (Pauli Nat)) : Pauli Nat :=
  ⟨(Ps.map Pauli.ph).sum, fun n => (Ps.map fun P => P.x n).sum, fun n => (Ps.map fun P => P.z n).sum⟩

/-- Equal phases, and equal at the qubits of the noise model. -/
def SameOp (inds : Dict String Nat) (P P' : Pauli Nat) : Prop :=
  P.ph = P'.ph ∧ ∀ q ∈ inds.keys, P.x (ind inds q) = P'.x (ind inds q) ∧ P.z (ind inds q) = P'.z (ind inds q)

/-- The operator times `i^k`. -/
def Pauli.times (P : Pauli Q) (k : ZMod 4) : Pauli Q := { P with ph := P.ph + k }

/-- For every record of measurements the block `b` returns a circuit that maps the operator `P` to the operator `P'`. -/
def MapsOp (nm : NoiseModel) (b : PyM MeasState Circuit) (P P' : Pauli Nat) : Prop :=
  ∀ (s : MeasState) (hist : List String), s.Tracks nm.inds hist →
    ∃ c s', b s = (.ok c, s') ∧ SameOp nm.inds (P.conjAll (ops c)) P'

/-- The block `b` maps the stabilizer of the ancilla `a` of the layout `l` to the product of the stabilizers stored with
the given label, times `i^k`. -/
def MapsSigned (nm : NoiseModel) (ls : List Layout) (label : String) (b : PyM MeasState Circuit) (l : Layout) (a : String)
    (k : ZMod 4) : Prop :=
  MapsOp nm b (stabOp (ind nm.inds) ls a) ((xzProduct ((newGen l label a).map (stabOp (ind nm.inds) ls))).times k)

/-- The logical operator of the given type, with sign +. -/
def logicalOp (ι : String → Nat) (l : Layout) (label : String) (isX : Bool) : Pauli Nat :=
  pauliString ι isX (((if isX then l.logX else l.logZ).get? label).getD [])

/-- The block `b` maps the logical operator of the given type and label of `l` to the product of the logical operators
in `image` and of stabilizers, times `i^k`. -/
def MapsLogicalSigned (nm : NoiseModel) (ls : List Layout) (b : PyM MeasState Circuit) (l : Layout) (label : String)
    (isX : Bool) (image : List (Layout × String × Bool)) (k : ZMod 4) : Prop :=
  ∃ T : List String, (∀ a ∈ T, ∃ l ∈ ls, a ∈ ancOfLayout l) ∧
    MapsOp nm b (logicalOp (ind nm.inds) l label isX)
      ((xzProduct ((image.map fun i => logicalOp (ind nm.inds) i.1 i.2.1 i.2.2) ++
        T.map (stabOp (ind nm.inds) ls))).times k)

end SurfaceSim.Spec
