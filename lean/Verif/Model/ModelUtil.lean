/-
Model of `surface_sim/models/util.py`.
-/
import Verif.Model.Stim

namespace SurfaceSim

/-- `num_biased_ops` (models/util.py 9-12): the sum of `4^i * 3^(n-1-i)` for `i < n`. -/
def numBiasedOps (n : Nat) : Nat := ((List.range n).map fun i => 4 ^ i * 3 ^ (n - 1 - i)).sum

/-- `itertools.product(paulis, repeat=n)` (models/util.py 50) in its lexicographic order. -/
def pauliProduct : Nat → List (List String)
  | 0 => [[]]
  | n + 1 => ["I", "X", "Y", "Z"].flatMap fun p => (pauliProduct n).map (p :: ·)

/-- `operators` (models/util.py 50): all Pauli strings but the first (the identity). -/
def pauliOperators (n : Nat) : List (List String) := (pauliProduct n).drop 1

/-- `biased_prefactors` (models/util.py 22-67), exact rationals instead of floats. -/
def biasedPrefactors (pauli : String) (factor : Rat) (n : Nat) : Except Err (List Rat) :=
  let ops := pauliOperators n
  let numOps := ops.length
  let numBiased := (ops.filter fun op => decide (pauli ∈ op)).length
  let denom : Rat := numBiased * (factor - 1) + numOps
  if denom = 0 then .error .zeroDivisionError
  else
    let nonbias := 1 / denom
    let bias := factor * nonbias
    .ok (ops.map fun op => if pauli ∈ op then bias else nonbias)

/-- `idle_error_probs` (models/util.py 70-111): the argument checks; the three results are kept
symbolic (see `Arg.idle`) because they involve `exp`. -/
def idleErrorProbs (t1 t2 t : Rat) : Except Err (List Arg) :=
  if t1 ≤ 0 then .error .valueError
  else if t2 ≤ 0 then .error .valueError
  else if t ≤ 0 then .error .valueError
  else .ok [.idle t1 t2 t 0, .idle t1 t2 t 1, .idle t1 t2 t 2]

end SurfaceSim
