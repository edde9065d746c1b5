/-
Quantum mechanics of circuits: kets, gates, measurements with their outcomes and resets.  The frame semantics
(`Verif.Spec.Frame`) and the images of Pauli operators (`Verif.Spec.Signed`) are proved from it, see `C51_...`.
-/
import Mathlib.Analysis.Real.Sqrt
import Mathlib.Data.Complex.Basic
import Verif.Spec.Signed

namespace SurfaceSim.Spec
open SurfaceSim Complex

/-- A vector: its amplitudes at the assignments of bits to qubits (not normalised). -/
abbrev Ket (Q : Type) := (Q → ZMod 2) → ℂ

/-- `(-1)^b` -/
def sgn (b : ZMod 2) : ℂ := if b = 0 then 1 else -1

variable {Q : Type} [DecidableEq Q]

/-- Pauli X. -/
def opX (q : Q) (ψ : Ket Q) : Ket Q := fun v => ψ (Function.update v q (v q + 1))

/-- Pauli Z. -/
def opZ (q : Q) (ψ : Ket Q) : Ket Q := fun v => sgn (v q) * ψ v

/-- Pauli Y = i X Z. -/
def opY (q : Q) (ψ : Ket Q) : Ket Q := fun v => I * opX q (opZ q ψ) v

/-- The unitary operations; the others do nothing here. -/
noncomputable def gate (ψ : Ket Q) : Op Q → Ket Q
  | .x q => opX q ψ
  | .z q => opZ q ψ
  | .h q => fun v => ((√2 : ℝ) : ℂ)⁻¹ *
      (ψ (Function.update v q 0) + sgn (v q) * ψ (Function.update v q 1))
  | .s q => fun v => (if v q = 0 then 1 else I) * ψ v
  | .sdag q => fun v => (if v q = 0 then 1 else -I) * ψ v
  | .cz a b => fun v => sgn (v a * v b) * ψ v
  | .cx a b => fun v => ψ (Function.update v b (v b + v a))
  | .swap a b => fun v => ψ (v ∘ Equiv.swap a b)
  | _ => ψ

/-- Projection of `ψ` to the eigenvalue `(-1)^m` of the operator `B`. -/
noncomputable def project (B : Ket Q → Ket Q) (m : ZMod 2) (ψ : Ket Q) : Ket Q :=
  fun v => (1 / 2) * (ψ v + sgn m * B ψ v)

/-- Apply `C` if the bit is set. -/
def applyIf (m : ZMod 2) (C : Ket Q → Ket Q) (ψ : Ket Q) : Ket Q := if m = 0 then ψ else C ψ

/-- Vector, record of outcomes, values of detectors and observables, newest first. -/
structure QState (Q : Type) where
  ket : Ket Q
  recs : List (ZMod 2)
  dets : List (ZMod 2)
  obs : List (Rat × ZMod 2)

/-- All qubits in `|0⟩`, nothing measured. -/
noncomputable def QState.init (Q : Type) : QState Q :=
  open Classical in ⟨fun v => if v = 0 then 1 else 0, [], [], []⟩

/-- One operation; `m` is the outcome if it measures something.  A reset measures, forgets the outcome, and flips the
qubit if it was wrong. -/
noncomputable def qstep (m : ZMod 2) (st : QState Q) : Op Q → QState Q
  | .m q => { st with ket := project (opZ q) m st.ket, recs := m :: st.recs }
  | .mx q => { st with ket := project (opX q) m st.ket, recs := m :: st.recs }
  | .my q => { st with ket := project (opY q) m st.ket, recs := m :: st.recs }
  | .r q => { st with ket := applyIf m (opX q) (project (opZ q) m st.ket) }
  | .rx q => { st with ket := applyIf m (opZ q) (project (opX q) m st.ket) }
  | .ry q => { st with ket := applyIf m (opX q) (project (opY q) m st.ket) }
  | .det ks => { st with dets := parity st.recs ks :: st.dets }
  | .obs k ks => { st with obs := (k, parity st.recs ks) :: st.obs }
  | op => { st with ket := gate st.ket op }

/-- The operations can lead from `st` to `st'`: each measurement has an outcome of non-zero probability. -/
def Runs : List (Op Q) → QState Q → QState Q → Prop
  | [], st, st' => st = st'
  | op :: l, st, st' => ∃ m, (qstep m st op).ket ≠ 0 ∧ Runs l (qstep m st op) st'

/-- Observables: indices of the first list, sums of the values. -/
def addObs (a b : List (Rat × ZMod 2)) : List (Rat × ZMod 2) := List.zipWith (fun p r => (p.1, p.2 + r.2)) a b

/-- The operations have a possible result, and all possible results (starting with all qubits in `|0⟩`) have the same
detectors and observables. -/
def Deterministic (l : List (Op Q)) : Prop :=
  (∃ s, Runs l (QState.init Q) s) ∧
  ∀ s s', Runs l (QState.init Q) s → Runs l (QState.init Q) s' → s.dets = s'.dets ∧ s.obs = s'.obs

/-- The operator acts on a vector, if its Z operators act on the qubits of `A` only. -/
noncomputable def Pauli.act (A : Finset Q) (P : Pauli Q) (ψ : Ket Q) : Ket Q := fun v =>
  I ^ P.ph.val * (sgn (∑ q ∈ A, P.z q * (v + P.x) q) * ψ (v + P.x))

/-- The qubits of an operation are in `A`. -/
def Op.On (A : Finset Q) : Op Q → Prop
  | .x q | .z q | .h q | .s q | .sdag q | .m q | .mx q | .my q | .r q | .rx q | .ry q => q ∈ A
  | .cz a b | .cx a b | .swap a b => a ∈ A ∧ b ∈ A
  | _ => True

end SurfaceSim.Spec
