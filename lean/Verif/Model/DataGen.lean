/-
`util/data_gen.py`: sampling a memory experiment and arranging the outcomes in a labelled dataset.
-/
import Verif.Model.Layout
import Verif.Model.Stim

namespace SurfaceSim

/-- `circuit.without_noise()`: noise channels are removed and measurements lose their flip probability (data_gen.py 54).
(Stim may fuse instructions that become equal; this is not modelled and does not change the order of measurements.) -/
def Circuit.withoutNoise (c : Circuit) : Circuit :=
  (c.filter fun i => !i.gate.isNoise).map fun i => if i.gate.isMeas then { i with args := [] } else i

namespace DataGen

/-- A numpy array of booleans in row-major order. -/
structure NdArray where
  shape : List Nat
  data : List Bool
  deriving DecidableEq, Repr

namespace NdArray

/-- Position of an index in row-major order; `none` if out of bounds. -/
def offset : List Nat → List Nat → Option Nat
  | [], [] => some 0
  | m :: shape, i :: idx => if i < m then (offset shape idx).map (i * shape.prod + ·) else none
  | _, _ => none

/-- `a[i, j, ...]` for non-negative indices. -/
def get? (a : NdArray) (idx : List Nat) : Option Bool := (offset a.shape idx).bind fun k => a.data[k]?

/-- `a.reshape(*shape)` for known dimensions (data_gen.py 49, 61): `ValueError` if the sizes differ. -/
def reshape (a : NdArray) (shape : List Nat) : Except Err NdArray :=
  if a.data.length = shape.prod then .ok ⟨shape, a.data⟩ else .error .valueError

/-- `a.reshape(n, -1)` (data_gen.py 47): `ValueError` if the second dimension cannot be inferred. -/
def reshapeRows (a : NdArray) (n : Nat) : Except Err NdArray :=
  if n = 0 then .error .valueError
  else if a.data.length % n = 0 then .ok ⟨[n, a.data.length / n], a.data⟩
  else .error .valueError

/-- The rows of an array with two axes. -/
def rows (n w : Nat) (data : List Bool) : List (List Bool) :=
  (List.range n).map fun i => (data.drop (i * w)).take w

/-- `np.split(a, [k], axis=1)` for an array with two axes and `k ≥ 0` (data_gen.py 48). -/
def split1 (a : NdArray) (k : Nat) : Except Err (NdArray × NdArray) :=
  match a.shape with
  | [n, w] => .ok (⟨[n, min k w], (rows n w a.data).flatMap (·.take k)⟩,
      ⟨[n, w - k], (rows n w a.data).flatMap (·.drop k)⟩)
  | _ => .error .indexError

/-- `np.squeeze(a)`: axes of length one are removed (data_gen.py 58). -/
def squeeze (a : NdArray) : NdArray := ⟨a.shape.filter (· ≠ 1), a.data⟩

/-- `np.split(a, [k])` for `k ≥ 0` (data_gen.py 59): `IndexError` for an array without axes. -/
def split0 (a : NdArray) (k : Nat) : Except Err (NdArray × NdArray) :=
  match a.shape with
  | m :: shape => .ok (⟨min k m :: shape, a.data.take (k * shape.prod)⟩, ⟨(m - k) :: shape, a.data.drop (k * shape.prod)⟩)
  | [] => .error .indexError

end NdArray

/-- `compiled_sampler.sample(shots)` of a circuit and a seed (data_gen.py 44-45, 56-57). -/
abbrev Sampler := Circuit → Option Int → Nat → NdArray

/-- The `xarray.Dataset` (data_gen.py 66-80). -/
structure Dataset where
  seed : Option Int
  shot : List Nat
  qecRound : List Nat
  ancQubit : List String
  dataQubit : List String
  ancMeas : NdArray
  dataMeas : NdArray
  idealAncMeas : NdArray
  idealDataMeas : NdArray
  deriving DecidableEq, Repr

/-- The checks of `xarray.Dataset(...)`: the axes of the variables have the lengths of the coordinates, otherwise
`ValueError` (data_gen.py 66-80). -/
def mkDataset (d : Dataset) : Except Err Dataset :=
  if d.ancMeas.shape = [d.shot.length, d.qecRound.length, d.ancQubit.length] ∧
    d.dataMeas.shape = [d.shot.length, d.dataQubit.length] ∧
    d.idealAncMeas.shape = [d.qecRound.length, d.ancQubit.length] ∧
    d.idealDataMeas.shape = [d.dataQubit.length] then .ok d else .error .valueError

/-- `sample_memory_experiment` (data_gen.py 8-82), for `num_shots ≥ 0` and `num_rounds ≥ 0`. -/
def sampleMemory (sample : Sampler) (l : Layout) (experiment : Circuit) (numShots numRounds : Nat) (seed : Option Int) :
    Except Err Dataset := do
  let anc ← l.getQubits [("role", .str "anc")]
  let data ← l.getQubits [("role", .str "data")]
  let numAnc := anc.length
  let shots := List.range numShots
  let qecRounds := List.range' 1 numRounds
  let outcomes ← (sample experiment seed numShots).reshapeRows numShots
  let (ancOutcomes, dataOutcomes) ← outcomes.split1 (numRounds * numAnc)
  let ancMeas ← ancOutcomes.reshape [numShots, numRounds, numAnc]
  let outcomes := (sample experiment.withoutNoise seed 1).squeeze
  let (ancOutcomes, idealDataMeas) ← outcomes.split0 (numRounds * numAnc)
  let idealAncMeas ← ancOutcomes.reshape [numRounds, numAnc]
  mkDataset ⟨seed, shots, qecRounds, anc, data, ancMeas, dataOutcomes, idealAncMeas, idealDataMeas⟩

end DataGen
end SurfaceSim
