/-
Specification vocabulary for datasets of outcomes.
-/
import Verif.Model.DataGen
import Verif.Spec.Memory

namespace SurfaceSim.Spec
open SurfaceSim DataGen

/-- The sampler returns one row for each shot, with one entry for each measurement of the circuit. -/
def SamplesRecords (sample : Sampler) : Prop :=
  ∀ c seed n, (sample c seed n).shape = [n, (measOrder c).length] ∧
    (sample c seed n).data.length = n * (measOrder c).length

/-- `anc_meas.sel(shot=i, qec_round=r, anc_qubit=a)`. -/
def ancAt (d : Dataset) (i r : Nat) (a : String) : Option Bool :=
  d.ancMeas.get? [d.shot.idxOf i, d.qecRound.idxOf r, d.ancQubit.idxOf a]

/-- `data_meas.sel(shot=i, data_qubit=q)`. -/
def dataAt (d : Dataset) (i : Nat) (q : String) : Option Bool :=
  d.dataMeas.get? [d.shot.idxOf i, d.dataQubit.idxOf q]

/-- `ideal_anc_meas.sel(qec_round=r, anc_qubit=a)`. -/
def idealAncAt (d : Dataset) (r : Nat) (a : String) : Option Bool :=
  d.idealAncMeas.get? [d.qecRound.idxOf r, d.ancQubit.idxOf a]

/-- `ideal_data_meas.sel(data_qubit=q)`. -/
def idealDataAt (d : Dataset) (q : String) : Option Bool := d.idealDataMeas.get? [d.dataQubit.idxOf q]

/-- Entry `k` of the record of the circuit `c` is the `r`-th measurement of the qubit with index `q`. -/
def IsMeasurement (c : Circuit) (q r k : Nat) : Prop :=
  (measOrder c)[k]? = some q ∧ ((measOrder c).take (k + 1)).count q = r

/-- The dataset `d` holds the outcomes of `c`: every label refers to the outcome of the measurement it names. -/
def HoldsOutcomes (sample : Sampler) (inds : Dict String Nat) (c : Circuit) (shots n : Nat) (seed : Option Int)
    (anc data : List String) (d : Dataset) : Prop :=
  d.seed = seed ∧ d.shot = List.range shots ∧ d.qecRound = (List.range n).map (· + 1) ∧ d.ancQubit = anc ∧
    d.dataQubit = data ∧
    (∀ a ∈ anc, ∀ r, 1 ≤ r → r ≤ n → ∃ k, IsMeasurement c (ind inds a) r k ∧
      IsMeasurement c.withoutNoise (ind inds a) r k ∧
      (∀ i < shots, ∃ b, (sample c seed shots).get? [i, k] = some b ∧ ancAt d i r a = some b) ∧
      ∃ b, (sample c.withoutNoise seed 1).get? [0, k] = some b ∧ idealAncAt d r a = some b) ∧
    ∀ q ∈ data, ∃ k, IsMeasurement c (ind inds q) 1 k ∧ IsMeasurement c.withoutNoise (ind inds q) 1 k ∧
      (∀ i < shots, ∃ b, (sample c seed shots).get? [i, k] = some b ∧ dataAt d i q = some b) ∧
      ∃ b, (sample c.withoutNoise seed 1).get? [0, k] = some b ∧ idealDataAt d q = some b

end SurfaceSim.Spec
