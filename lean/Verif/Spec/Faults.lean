/-
Faults in circuits.

A fault changes what is done at one place of a circuit: an arbitrary Pauli error on one qubit, at any time; an arbitrary
Pauli error on the two qubits of a two-qubit gate, after the gate and before anything else is done with these qubits; or a
wrong measurement outcome.
-/
import Verif.Spec.Frame
import Verif.Spec.Memory

namespace SurfaceSim.Spec
open SurfaceSim

variable {Q : Type}

/-- The operation acts on the qubit. -/
def Op.Touches : Op Q → Q → Prop
  | .x a, q | .z a, q | .h a, q | .s a, q | .sdag a, q => q = a
  | .cz a b, q | .cx a b, q | .swap a b, q => q = a ∨ q = b
  | .m a, q | .mx a, q | .my a, q | .r a, q | .rx a, q | .ry a, q => q = a
  | .det _, _ | .obs _ _, _ => False

/-- A Pauli error on one qubit: X if `bx`, Z if `bz`, Y if both. -/
def pauli (q : Q) (bx bz : Bool) : List (Op Q) := (if bx then [.x q] else []) ++ if bz then [.z q] else []

/-- The pairs of qubits that have just interacted, after the operation `o`. -/
def justCoupled (P : Q → Q → Prop) (o : Op Q) (a b : Q) : Prop :=
  o = .cz a b ∨ o = .cx a b ∨ o = .swap a b ∨ (P a b ∧ ¬ o.Touches a ∧ ¬ o.Touches b)

/-- `Faulty P l L k`: the operations `L` are done instead of `l` because of `k` faults, if the pairs of qubits `P` have just
interacted. -/
inductive Faulty : (Q → Q → Prop) → List (Op Q) → List (Op Q) → Nat → Prop
  | done (P : Q → Q → Prop) : Faulty P [] [] 0
  | op {P : Q → Q → Prop} {l L : List (Op Q)} {k : Nat} (o : Op Q) (h : Faulty (justCoupled P o) l L k) :
      Faulty P (o :: l) (o :: L) k
  | one {P : Q → Q → Prop} {l L : List (Op Q)} {k : Nat} (q : Q) (bx bz : Bool) (h : Faulty P l L k) :
      Faulty P l (pauli q bx bz ++ L) (k + 1)
  | two {P : Q → Q → Prop} {l L : List (Op Q)} {k : Nat} (a b : Q) (ax az bx bz : Bool) (hp : P a b) (h : Faulty P l L k) :
      Faulty P l (pauli a ax az ++ pauli b bx bz ++ L) (k + 1)
  | outcome {P : Q → Q → Prop} {l L : List (Op Q)} {k : Nat} (q : Q) (h : Faulty (justCoupled P (.m q)) l L k) :
      Faulty P (.m q :: l) ([.x q, .m q, .x q] ++ L) (k + 1)

/-- The operations `L` are done instead of those of the circuit `c` because of `k` faults. -/
def FaultsIn (c : Circuit) (L : List (Op Nat)) (k : Nat) : Prop := Faulty (fun _ _ => False) (ops c) L k

/-- Fewer than `d` faults that change no detector do not change the observables. -/
def Detects (d : Nat) (c : Circuit) : Prop :=
  ∀ (L : List (Op Nat)) (k : Nat), FaultsIn c L k → k < d → ∀ ζ ρ : Nat → ZMod 2,
    (run ρ (FState.start ζ) L).dets.reverse = detectors ζ ρ c →
      (run ρ (FState.start ζ) L).obs.reverse = observables ζ ρ c

/-- The experiment `e` returns a circuit in which fewer than `d` faults are seen by the detectors or harmless, and some `d`
faults are neither. -/
def FaultDistance (cfg : Detectors.Config) (d : Nat) (e : PyM (Sim cfg) Circuit) : Prop :=
  ∀ s, ∃ c s', e s = (.ok c, s') ∧ Detects d c ∧ ¬ Detects (d + 1) c

/-- The ancillas with detectors (all of them for `None`) contain the ones that measure the stabilizers of the basis. -/
def SelectsBasis (l : Layout) (rotBasis : Bool) (ancDetectors : Option (List String)) : Prop :=
  ∀ sel, ancDetectors = some sel →
    ∀ stabs, l.getQubits [("role", .str "anc"), ("stab_type", .str (if rotBasis then "x_type" else "z_type"))] = .ok stabs →
      ∀ a ∈ stabs, a ∈ sel

end SurfaceSim.Spec
