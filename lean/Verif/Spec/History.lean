/-
Specification of measurement histories: the global record is the list of measured qubits, in order.
-/
namespace SurfaceSim.Spec

/-- `j` is the position of the `k`-th most recent measurement of `q` in the record `hist`. -/
def IsKthLast (hist : List String) (q : String) (k j : Nat) : Prop :=
  hist[j]? = some q ∧ (hist.drop j).count q = k

end SurfaceSim.Spec
